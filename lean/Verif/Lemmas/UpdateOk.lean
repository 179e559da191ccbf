/-
`Update` is free of undefined behaviour on a consistent window and queue, for every solver result; what it leaves.
-/
import Verif.Lemmas.UpdateSafe

set_option linter.unusedSectionVars false

namespace Vio
open Spec WinSpec

variable {K T : Type} [Add K] [Sub K] [Mul K] [Neg K] [Div K] [Zero K] [One K] [ScalarFn K]
  [TimeOps T] [TimeCast T K]

namespace Update

theorem triangulate_ok (ext : Ext K) (w : Win K T) (r : Nat) (h : Resolves w.frm (w.feat.heap r).first 0 (w.feat.heap r).observes) :
    ∃ good w', triangulate ext w r = .ok (good, w') := by
  obtain ⟨vs, hv⟩ := (featViews_iff w.frm (w.feat.heap r).first (w.feat.heap r).observes 0).2 h
  obtain ⟨⟨good, pw⟩, ha⟩ := Triang.C53_defined ext (vs.map (·.q)) (vs.map (·.p)) (vs.map (·.n)) (w.feat.heap r).pw (by simp) (by simp)
  unfold triangulate
  simp only [hv, Res.bind_ok, ha]
  exact ⟨_, _, rfl⟩

theorem selectLoop_ok (env : Env K) (todo : List (Nat × Nat)) : ∀ (w : Win K T) (good : List (Nat × Nat)) (pos : Nat),
    (∀ e ∈ todo, Resolves w.frm (w.feat.heap e.2).first 0 (w.feat.heap e.2).observes) → ∃ w' good' pos', selectLoop env w good pos todo = .ok (w', good', pos') := by
  induction todo with
  | nil => intro w good pos _; exact ⟨_, _, _, rfl⟩
  | cons e todo ih =>
    intro w good pos h
    obtain ⟨g1, w1, h1⟩ := triangulate_ok env.ext w e.2 (h e (by simp))
    have hk := (triangulate_spec env.ext w w1 e.2 g1 h1).1
    have h' : ∀ e ∈ todo, Resolves w1.frm (w1.feat.heap e.2).first 0 (w1.feat.heap e.2).observes := by
      intro e' he'
      rw [hk.frm, hk.heap e'.2]
      exact h e' (by simp [he'])
    rw [selectLoop, h1, Res.bind_ok]
    dsimp only
    split
    · exact ih _ _ _ h'
    · exact ih _ _ _ h'

theorem selectGood_ok (env : Env K) (maxUsed : Nat) (w : Win K T) (pos : Nat) (f : Frame K T) (hb : w.frm.frames.getLast? = some f)
    (h : ∀ e ∈ f.features, Resolves w.frm (w.feat.heap e.2).first 0 (w.feat.heap e.2).observes) : ∃ w' sel pos', selectGood env maxUsed w pos = .ok (w', sel, pos') := by
  obtain ⟨w', good, pos', h1⟩ := selectLoop_ok env f.features w [] pos h
  unfold selectGood
  rw [back, hb]
  dsimp only
  rw [Res.bind_ok, h1, Res.bind_ok]
  exact ⟨_, _, _, rfl⟩

/-- The measurement matrix of selected features exists and has the columns of the joint covariance. -/
theorem measure_ok (env : Env K) (w : Win K T) (b : Nat) (hw : WinOk w.frm b) (fs : List Nat) (hok : ∀ r ∈ fs, FeatOk w.frm (w.feat.heap r))
    (hlt : startRow w fs fs.length < two32) : ∃ h, measure env w fs = .ok (some h) ∧ h.cols = hxCols w.frm + 1 := by
  obtain ⟨a, a1, -, a3, -⟩ := C51_stack env.ext w b hw fs hok hlt
  obtain ⟨c, c1, c2⟩ := compress_ok env a
  unfold measure
  rw [a1, Res.bind_ok]
  dsimp only
  rw [c1, Res.bind_ok]
  exact ⟨c, rfl, by rw [c2, a3]⟩

theorem startRow_le (w : Win K T) (c : Nat) (fs : List Nat) (h : ∀ r ∈ fs, 2 * (w.feat.heap r).observeNum ≤ c) : startRow w fs fs.length ≤ fs.length * c := by
  induction fs with
  | nil => simp [startRow]
  | cons r fs ih =>
    have h1 := ih (fun r hr => h r (by simp [hr]))
    have h2 := h r (by simp)
    have hs : startRow w (r :: fs) (r :: fs).length = (2 * (w.feat.heap r).observeNum - 3) + startRow w fs fs.length := by simp [startRow]
    rw [hs, List.length_cons, Nat.add_mul]
    omega

/-- The state correction is defined, keeps the managers' part of the window, the samples and the sizes in the queue. -/
theorem correct_ok (dx : DMat K) (s : PropQueue K T) (w : Win K T) (b : Nat) (hw : WinOk w.frm b) (hi : s.items ≠ []) (hc : dx.cols = 1)
    (hr : 15 + (w.frm.extrinsics.length + w.frm.frames.length - 1) * 6 ≤ dx.rows) :
    ∃ s' m', correct dx s w.frm = .ok (s', m') ∧ KeepWin w { w with frm := m' } ∧ s'.items.map sample = s.items.map sample ∧ s'.F = s.F := by
  obtain ⟨i0, rest, hi⟩ := List.exists_cons_of_ne_nil hi
  rcases List.eq_nil_or_concat w.frm.frames with h0 | ⟨fs, f, hf⟩
  · exact absurd h0 hw.ne
  rw [List.concat_eq_append] at hf
  have hl : w.frm.frames.length = fs.length + 1 := by rw [hf]; simp
  have hid : ∀ x ∈ fs, x.id ≠ f.id := by
    have hnd : (w.frm.frames.map (·.id)).Nodup := by rw [hw.ids]; exact List.nodup_range'
    rw [hf, List.map_append, List.nodup_append] at hnd
    intro x hx
    exact hnd.2.2 _ (List.mem_map_of_mem hx) _ (by simp)
  have := correct_eq dx s w.frm i0 rest fs f hi hf hid hc (by omega)
  refine ⟨_, _, this, ?_, ?_, rfl⟩
  · refine KeepWin.of_frames _ _ ?_ (by simp) rfl rfl
    rw [hf]
    simp only [List.map_append, List.map_cons, List.map_nil]
    congr 1
    apply List.ext_getElem?
    intro i
    simp only [List.getElem?_map, List.getElem?_mapIdx, Option.map_map]
    cases fs[i]? with
    | none => rfl
    | some x => rfl
  · rw [hi]; rfl

theorem repropLoop_rows (g : Vec3 K) (l : List (PropItem K T)) : ∀ (s : PropQueue K T) (i0 : PropItem K T), s.F.rows = 15 →
    (∀ it ∈ (PropQueue.repropLoop g s i0 l).2, it.imuCov.rows = 15 ∧ it.imuCov.cols = 15 ∧ it.imuEx.rows = 15) ∧ (PropQueue.repropLoop g s i0 l).1.F.rows = 15 := by
  induction l with
  | nil => intro s i0 h; exact ⟨by simp [PropQueue.repropLoop], h⟩
  | cons i1 l ih =>
    intro s i0 h
    have hF : (s.stepF i0 i1.accel i1.gyro i1.ts).rows = 15 := h
    obtain ⟨h1, h2⟩ := ih { s with F := s.stepF i0 i1.accel i1.gyro i1.ts, G := s.stepG i0 i1.ts } (s.stepItem g i0 i1.accel i1.gyro i1.ts) hF
    rw [PropQueue.repropLoop]
    refine ⟨?_, h2⟩
    intro it hit
    rcases List.mem_cons.1 hit with rfl | hit
    · exact ⟨hF, hF, hF⟩
    · exact h1 it hit

theorem stepItem_dims (s : PropQueue K T) (g : Vec3 K) (i0 : PropItem K T) (a w : Vec3 K) (t : T) (h : s.F.rows = 15) :
    (s.stepItem g i0 a w t).imuCov.rows = 15 ∧ (s.stepItem g i0 a w t).imuCov.cols = 15 ∧ (s.stepItem g i0 a w t).imuEx.rows = 15 ∧
    (s.stepItem g i0 a w t).imuEx.cols = i0.imuEx.cols ∧ (s.stepF i0 a w t).rows = 15 := ⟨h, h, h, rfl, h⟩

/-- Sizes after `Propagate`. -/
theorem propagate_qdims (s : PropQueue K T) (nExt n : Nat) (g a w : Vec3 K) (t : T) (h : s.items = [] ∧ n = 6 * (nExt + 1) ∨ s.items ≠ [] ∧ QDims s n) :
    QDims (s.propagate nExt g a w t) n := by
  unfold PropQueue.propagate
  rcases h with ⟨h, rfl⟩ | ⟨h, hq⟩
  · rw [h]
    have e : nExt * 6 + 6 = 6 * (nExt + 1) := by omega
    dsimp only [List.getLast?_nil]
    rw [e]
    refine ⟨⟨?_, rfl, rfl⟩, ?_, ?_, rfl⟩
    · intro it hit; rw [List.mem_singleton] at hit; subst hit; rfl
    · intro it hit; rw [List.mem_singleton] at hit; subst hit; exact ⟨rfl, rfl⟩
    · intro it hit; rw [List.mem_singleton] at hit; subst hit; rfl
  · cases hl : s.items.getLast? with
    | none => exact absurd (List.getLast?_eq_none_iff.1 hl) h
    | some i0 =>
      dsimp only
      obtain ⟨d1, d2, d3, d4, d5⟩ := stepItem_dims s g i0 a w t hq.F
      have hm : i0 ∈ s.items := List.mem_of_getLast? hl
      refine ⟨⟨?_, hq.ex.rows, hq.ex.cols⟩, ?_, ?_, d5⟩
      · intro it hit
        rcases List.mem_append.1 hit with hit | hit
        · exact hq.ex.items it hit
        · rw [List.mem_singleton] at hit; subst hit; rw [d4]; exact hq.ex.items i0 hm
      · intro it hit
        rcases List.mem_append.1 hit with hit | hit
        · exact hq.cov it hit
        · rw [List.mem_singleton] at hit; subst hit; exact ⟨d1, d2⟩
      · intro it hit
        rcases List.mem_append.1 hit with hit | hit
        · exact hq.rows it hit
        · rw [List.mem_singleton] at hit; subst hit; exact d3

/-- The common tail of the update is defined; sizes and samples afterwards. -/
theorem finish_ok (env : Env K) (g : Vec3 K) (u : Upd K T) (hf : u.w.frm.frames ≠ []) (hp : u.policy = .noMarg ∨ 2 ≤ u.w.frm.frames.length) (hi : u.q.items ≠ [])
    (hF : u.q.F.rows = 15) :
    ∃ u', finish env g u = .ok (true, u') ∧ u'.w = u.w ∧ u'.policy = u.policy ∧ u'.q.items.map sample = u.q.items.map sample ∧
      QDims u'.q ((u.w.frm.extrinsics.length + u.w.frm.frames.length) * 6 - 6 * dropped u.policy) := by
  obtain ⟨c1, h1⟩ := expand_ok env.junk u.w.frm u.cov hf
  obtain ⟨d1, d2⟩ := expand_dims _ _ _ _ h1
  obtain ⟨c2, h2⟩ := reduce_ok env.junk u.policy u.w.frm c1 hp d1 d2
  obtain ⟨e1, e2⟩ := reduce_dims _ _ _ _ _ d1 d2 h2
  have hpos := List.length_pos_iff.2 hf
  have hdr : dropped u.policy ≤ 1 := by cases u.policy <;> simp [dropped]
  obtain ⟨s, h3, hs⟩ := storeCov_ok u.q c2 hi (by omega) (by omega)
  have hfin : finish env g u = .ok (true, { u with q := s.repropagate g, cov := c2 }) := by
    unfold finish
    rw [h1, Res.bind_ok, h2, Res.bind_ok, h3, Res.bind_ok]
  have hsF : s.F.rows = 15 := by
    unfold storeCov at h3
    split at h3
    · cases h3
    · obtain ⟨_, _, h3⟩ := Res.bind_eq_ok.1 h3
      obtain ⟨_, _, h3⟩ := Res.bind_eq_ok.1 h3
      obtain ⟨_, _, h3⟩ := Res.bind_eq_ok.1 h3
      cases h3; exact hF
  obtain ⟨-, -, hex⟩ := finish_dims _ _ _ _ _ hfin
  obtain ⟨i0, rest, hit, k1, k2, k3, -⟩ := storeCov_dims _ _ _ h3
  obtain ⟨l1, l2⟩ := repropLoop_rows g rest s i0 hsF
  refine ⟨_, hfin, rfl, rfl, (C36_samples_kept s g).1.trans hs, ⟨hex, ?_, ?_, ?_⟩⟩
  · simp only [PropQueue.repropagate, hit]
    intro it h
    rcases List.mem_cons.1 h with rfl | h
    · exact ⟨k1, k2⟩
    · exact ⟨(l1 it h).1, (l1 it h).2.1⟩
  · simp only [PropQueue.repropagate, hit]
    intro it h
    rcases List.mem_cons.1 h with rfl | h
    · exact k3
    · exact (l1 it h).2.2
  · simp only [PropQueue.repropagate, hit]
    exact l2

/-- Machine arithmetic bounds: numbers of rows and columns fit `uint32_t` for `nc` cameras, at most `len` frames and at most `used` features per update. -/
structure Fits (nc len used : Nat) : Prop where
  cols : (nc + len) * 6 < two32
  obs : 2 * (len * nc) < two32
  rows : used * (2 * (len * nc)) < two32

/-- `Update` on a consistent state. -/
theorem update_ok (env : Env K) (noise : K) (maxUsed : Nat) (g : Vec3 K) (u : Upd K T) (ts thr : T) (l : Log K T) (hr : Rel l u.w) (ha : AddrOk u.w.frm)
    (hg : ∀ m ∈ l.msgs, GoodObs u.w.frm.extrinsics.length m) (h2 : 2 ≤ l.msgs.length)
    (hq : QDims u.q (6 * (u.w.frm.extrinsics.length + l.msgs.length - 1))) (hfit : Fits u.w.frm.extrinsics.length l.msgs.length maxUsed) :
    ∃ good u', update env noise maxUsed g u ts thr = .ok (good, u') ∧
      (good = false → u'.w = u.w ∧ u'.q.items = []) ∧
      (good = true → KeepWin u.w u'.w ∧ decidePolicy u.w = .ok u'.policy ∧
        QDims u'.q ((u.w.frm.extrinsics.length + l.msgs.length) * 6 - 6 * dropped u'.policy) ∧
        u'.q.items.map sample = (u.q.resetOrigin ts thr).1.items.map sample ∧ (u.q.resetOrigin ts thr).1.items ≠ []) := by
  obtain ⟨old, o1, -, -, o4, o5⟩ := C37_reset u.q ts thr
  have hlen := hr.len
  have hne : u.w.frm.frames ≠ [] := by intro hc; rw [hc] at hlen; simp at hlen; omega
  unfold update
  generalize u.q.resetOrigin ts thr = sf at o1 o4 o5 ⊢
  obtain ⟨s, found⟩ := sf
  dsimp only at o1 o4 o5 ⊢
  cases found with
  | false =>
    refine ⟨false, { u with q := s }, by simp, fun _ => ⟨rfl, ?_⟩, by simp⟩
    by_contra hc
    exact absurd (o4.2 hc) (by simp)
  | true =>
    have hi : s.items ≠ [] := o4.1 rfl
    have hqs : QDims s (6 * (u.w.frm.extrinsics.length + l.msgs.length - 1)) := by
      have hsub : ∀ it ∈ s.items, it ∈ u.q.items := by intro it h; rw [o1]; simp [h]
      refine ⟨⟨fun it h => hq.ex.items it (hsub it h), ?_, ?_⟩, fun it h => hq.cov it (hsub it h), fun it h => hq.rows it (hsub it h), ?_⟩
      · rw [o5]; exact hq.ex.rows
      · rw [o5]; exact hq.ex.cols
      · rw [o5]; exact hq.F
    simp only [Bool.not_true, Bool.false_eq_true, if_false]
    obtain ⟨policy, hp⟩ := Res.exists_of_isOk (C40_defined u.w ha.nodup (.inl (by omega)))
    rw [hp, Res.bind_ok]
    obtain ⟨i0, rest, hit⟩ := List.exists_cons_of_ne_nil hi
    have hi0 : i0 ∈ s.items := by rw [hit]; simp
    obtain ⟨good, c, hc, hcf, hct⟩ := C41_assembly s u.w.frm i0 rest hit hne (by rw [hlen]; exact hfit.cols) (hqs.cov i0 hi0).1 (hqs.cov i0 hi0).2 (hqs.rows i0 hi0)
      (by rw [hqs.ex.rows, hqs.ex.items i0 hi0]) (by rw [hqs.ex.cols, hqs.ex.items i0 hi0])
    have hgood : good = true := by
      cases good with
      | true => rfl
      | false => exact absurd (by rw [hqs.ex.items i0 hi0, hlen]) (hcf.1 rfl)
    subst hgood
    obtain ⟨hc1, hc2, -⟩ := hct rfl
    rw [hqs.ex.items i0 hi0] at hc1 hc2
    rw [hc, Res.bind_ok]
    simp only [Bool.not_true, Bool.false_eq_true, if_false]
    have hun : updateNewest s u.w.frm = .ok (true, { u.w.frm with frames := setBack u.w.frm.frames i0.st }) := by
      unfold updateNewest
      rw [if_neg (by simpa using hne), hit]
      rfl
    rw [hun, Res.bind_ok]
    simp only [Bool.not_true, Bool.false_eq_true, if_false]
    -- the window with the new pose
    rcases List.eq_nil_or_concat u.w.frm.frames with h0 | ⟨fs, f, hf⟩
    · exact absurd h0 hne
    rw [List.concat_eq_append] at hf
    have hsb : setBack u.w.frm.frames i0.st = fs ++ [{ f with p := i0.st.p, v := i0.st.v, q := i0.st.q }] := by
      rw [hf]; simp [setBack]
    obtain ⟨w1, hw1⟩ : ∃ w1 : Win K T, w1 = { u.w with frm := { u.w.frm with frames := setBack u.w.frm.frames i0.st } } := ⟨_, rfl⟩
    have k1 : KeepWin u.w w1 := by
      rw [hw1]
      refine KeepWin.of_frames _ _ ?_ rfl rfl rfl
      dsimp only
      rw [hsb, hf, List.map_append, List.map_append]
      rfl
    have r1 := rel_keep hr k1
    rw [← hw1]
    have hlast : w1.frm.frames.getLast? = some { f with p := i0.st.p, v := i0.st.v, q := i0.st.q } := by
      rw [hw1]; simp only [hsb, List.getLast?_append, List.getLast?_singleton, Option.some_or]
    obtain ⟨fl, hfl⟩ : ∃ fl : Frame K T, fl = { f with p := i0.st.p, v := i0.st.v, q := i0.st.q } := ⟨_, rfl⟩
    rw [← hfl] at hlast
    have hmem : fl ∈ w1.frm.frames := List.mem_of_getLast? hlast
    have hg1 : ∀ m ∈ l.msgs, GoodObs w1.frm.extrinsics.length m := by rw [k1.ext]; exact hg
    obtain ⟨w2, sel, pos', hs⟩ := selectGood_ok env maxUsed w1 u.pos fl hlast (fun e he => tracks_resolves r1 (rel_frameFeature r1 fl hmem e he).1 hg1)
    obtain ⟨sel1, -, sel3, -, hsb2⟩ := C50_selection env maxUsed w1 w2 u.pos pos' sel fl hlast (rel_refsNodup r1 fl hmem) hs
    have k2 := SameBut.keep hsb2
    have k12 := k1.trans k2
    have r2 := rel_keep r1 k2
    rw [hs, Res.bind_ok]
    dsimp only
    have hlen2 : w2.frm.frames.length = l.msgs.length := r2.len
    have hne2 : w2.frm.frames ≠ [] := by intro hc; rw [hc] at hlen2; simp at hlen2; omega
    have hpol : policy = .noMarg ∨ 2 ≤ w2.frm.frames.length := .inr (by omega)
    by_cases hemp : sel.isEmpty = true
    · rw [if_pos hemp]
      obtain ⟨u', f1, f2, f3, f4, f5⟩ := finish_ok env g ⟨s, w2, policy, c, sel, pos'⟩ hne2 hpol hi hqs.F
      refine ⟨true, u', f1, by simp, fun _ => ⟨?_, ?_, ?_, f4, hi⟩⟩
      · rw [f2]; exact k12
      · rw [f3]
      · rw [f3]; simpa only [k12.ext, hlen2] using f5
    · rw [if_neg hemp]
      have hwok := rel_winOk r2 (by intro hc; rw [hc] at h2; simp at h2)
      have hsel := C51_selected env maxUsed w1 w2 u.pos pos' sel fl hlast (rel_refsNodup r1 fl hmem) hs
        (fun e he => rel_num r1 (rel_frameFeature r1 fl hmem e he).1 _ hg hfit.obs)
      have hrow : startRow w2 sel sel.length < two32 := by
        refine lt_of_le_of_lt (startRow_le w2 (2 * (l.msgs.length * u.w.frm.extrinsics.length)) sel ?_) ?_
        · intro r hrs
          rw [(hsel r hrs).num]
          obtain ⟨⟨id, hid⟩, -⟩ := sel1 r hrs
          have hm := (rel_frameFeature r1 fl hmem _ hid).1
          rw [← k2.map] at hm
          exact Nat.mul_le_mul_left 2 (tracks_total _ (r2.tracks id r hm) hg)
        · exact lt_of_le_of_lt (Nat.mul_le_mul_right _ sel3) hfit.rows
      obtain ⟨hx, m1, m2⟩ := measure_ok env w2 l.base hwok sel hsel hrow
      rw [m1, Res.bind_ok]
      dsimp only
      have hcc : hxCols w2.frm = 15 + 6 * (u.w.frm.extrinsics.length + l.msgs.length - 1) := by
        unfold hxCols imuStateSize
        rw [k12.ext, hlen2]
        omega
      obtain ⟨k, q1, q2, q3, q4, q5⟩ := kalman_ok env.ext noise c hx (15 + 6 * (u.w.frm.extrinsics.length + l.msgs.length - 1)) hx.rows hc1 hc2 rfl (by rw [m2, hcc])
      obtain ⟨s3, m3, p1, p2, p3, p4⟩ := correct_ok k.dx s w2 l.base hwok hi q3 (by rw [q2, k12.ext, hlen2]; omega)
      have hus : updateState env noise ⟨s, w2, policy, c, sel, pos'⟩ hx = .ok ⟨s3, { w2 with frm := m3 }, policy, k.cov, sel, pos'⟩ := by
        unfold updateState
        dsimp only
        rw [q1, Res.bind_ok, p1, Res.bind_ok]
      rw [hus, Res.bind_ok]
      have k3 := k12.trans p2
      have r3 := rel_keep r2 p2
      have hlen3 : m3.frames.length = l.msgs.length := r3.len
      have hne3 : m3.frames ≠ [] := by intro hc; rw [hc] at hlen3; simp at hlen3; omega
      obtain ⟨u', f1, f2, f3, f4, f5⟩ := finish_ok env g ⟨s3, { w2 with frm := m3 }, policy, k.cov, sel, pos'⟩ hne3 (.inr (by show 2 ≤ m3.frames.length; omega))
        (by intro hc; have := congrArg List.length p3; dsimp only at hc; rw [hc, hit] at this; simp at this) (by show s3.F.rows = 15; rw [p4]; exact hqs.F)
      refine ⟨true, u', f1, by simp, fun _ => ⟨?_, ?_, ?_, f4.trans p3, hi⟩⟩
      · rw [f2]; exact k3
      · rw [f3]
      · rw [f3]
        have e1 : m3.extrinsics.length = u.w.frm.extrinsics.length := k3.ext
        simpa only [e1, hlen3] using f5

end Update
end Vio
