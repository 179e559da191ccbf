/-
C84 and C85 for the update and for whole histories.
-/
import Verif.Props.Order
import Verif.Props.FilterCov
import Verif.Props.Junk

set_option linter.unusedSectionVars false

namespace Vio
open Spec WinSpec Res DMat

namespace Update

section Selection
variable {K T : Type} [Add K] [Sub K] [Mul K] [Neg K] [Div K] [Zero K] [One K] [ScalarFn K]
  [TimeOps T] [TimeCast T K]

/-- Two selections with different scores take the same features, perhaps in another order. -/
theorem selectGood_order (env env' : Env K) (he : env.ext.svdLast = env'.ext.svdLast) (maxUsed : Nat) (w : Win K T) (pos : Nat) (f : Frame K T) (hb : w.frm.frames.getLast? = some f)
    (hnd : (f.features.map (·.2)).Nodup) (hk : KeysDiffer env pos f.features.length) (hk' : KeysDiffer env' pos f.features.length) (hmax : f.features.length ≤ maxUsed) :
    Both (fun x y => x.1 = y.1 ∧ x.2.1.Perm y.2.1 ∧ x.2.2 = y.2.2) (selectGood env maxUsed w pos) (selectGood env' maxUsed w pos) := by
  have bound : ∀ w' : Win K T, ((f.features.map (·.2)).filter (fun r => decide ((w'.feat.heap r).status = .solved))).length ≤ maxUsed := by
    intro w'
    refine (List.length_filter_le _ _).trans ?_
    rw [List.length_map]; exact hmax
  have hl : ∀ e : Env K, selectGood e maxUsed w pos = (solvedRefs e.ext w f.features).bind (fun x => .ok (x.1, ((insertAll e [] pos x.2).reverse.map (·.2)).take maxUsed, pos + x.2.length)) := by
    intro e
    unfold selectGood
    rw [back, hb]
    simp only [Res.bind_ok]
    rw [selectLoop_solved]
    cases solvedRefs e.ext w f.features <;> rfl
  cases hs : solvedRefs env.ext w f.features with
  | ub t =>
    rw [hl env, hl env', ← solvedRefs_ext env.ext env'.ext he, hs]
    exact rfl
  | ok x =>
    obtain ⟨w', l⟩ := x
    have e1 := hl env
    have e2 := hl env'
    rw [hs] at e1
    rw [← solvedRefs_ext env.ext env'.ext he, hs] at e2
    rw [e1, e2]
    have p1 := (C84_selected env maxUsed w w' pos _ _ f hb hnd e1 hk (bound w')).1
    have p2 := (C84_selected env' maxUsed w w' pos _ _ f hb hnd e2 hk' (bound w')).1
    exact ⟨rfl, p1.trans p2.symm, rfl⟩

/-- What the selection hands to the measurement equations. -/
theorem selected_ready (env : Env K) (maxUsed : Nat) (u : Upd K T) (s : PropQueue K T) (m : FrameMgr K T) (l : Log K T) (hr : Rel l u.w)
    (hg : ∀ m ∈ l.msgs, GoodObs u.w.frm.extrinsics.length m) (h1 : 1 ≤ l.msgs.length) (hfit : Fits u.w.frm.extrinsics.length l.msgs.length maxUsed)
    (hm : updateNewest s u.w.frm = .ok (true, m)) :
    ∃ f fl, u.w.frm.frames.getLast? = some f ∧ m.frames.getLast? = some fl ∧ fl.features = f.features ∧ (fl.features.map (·.2)).Nodup ∧
      ∀ w2 sel pos', selectGood env maxUsed { u.w with frm := m } u.pos = .ok (w2, sel, pos') →
        WinOk w2.frm l.base ∧ w2.frm = m ∧ (∀ r ∈ sel, FeatOk w2.frm (w2.feat.heap r)) ∧ startRow w2 sel sel.length < two32 := by
  have hlen := hr.len
  have hne : u.w.frm.frames ≠ [] := by intro hc; rw [hc] at hlen; simp at hlen; omega
  unfold updateNewest at hm
  rw [if_neg (by simpa using hne)] at hm
  obtain ⟨i0, -, hm⟩ := Res.bind_eq_ok.1 hm
  cases hm
  rcases List.eq_nil_or_concat u.w.frm.frames with h0 | ⟨fs, f, hf⟩
  · exact absurd h0 hne
  rw [List.concat_eq_append] at hf
  have hsb : setBack u.w.frm.frames i0.st = fs ++ [{ f with p := i0.st.p, v := i0.st.v, q := i0.st.q }] := by
    rw [hf]; simp [setBack]
  obtain ⟨w1, hw1⟩ : ∃ w1 : Win K T, w1 = { u.w with frm := { u.w.frm with frames := setBack u.w.frm.frames i0.st } } := ⟨_, rfl⟩
  have k1 : KeepWin u.w w1 := by
    rw [hw1]
    refine KeepWin.of_frames _ _ ?_ rfl rfl rfl
    dsimp only
    rw [hsb, hf, List.map_append, List.map_append]
    rfl
  have r1 := rel_keep hr k1
  have hlast : w1.frm.frames.getLast? = some { f with p := i0.st.p, v := i0.st.v, q := i0.st.q } := by
    rw [hw1]; simp only [hsb, List.getLast?_append, List.getLast?_singleton, Option.some_or]
  obtain ⟨fl, hfl⟩ : ∃ fl : Frame K T, fl = { f with p := i0.st.p, v := i0.st.v, q := i0.st.q } := ⟨_, rfl⟩
  rw [← hfl] at hlast
  have hmem : fl ∈ w1.frm.frames := List.mem_of_getLast? hlast
  have hg1 : ∀ m ∈ l.msgs, GoodObs w1.frm.extrinsics.length m := by rw [k1.ext]; exact hg
  rw [← hw1]
  refine ⟨f, fl, by rw [hf]; simp, by rw [hw1] at hlast; exact hlast, by rw [hfl], rel_refsNodup r1 fl hmem, fun w2 sel pos' hs => ?_⟩
  obtain ⟨sel1, -, sel3, -, hsb2⟩ := C50_selection env maxUsed w1 w2 u.pos pos' sel fl hlast (rel_refsNodup r1 fl hmem) hs
  have k2 := SameBut.keep hsb2
  have r2 := rel_keep r1 k2
  have hsel := C51_selected env maxUsed w1 w2 u.pos pos' sel fl hlast (rel_refsNodup r1 fl hmem) hs
    (fun e he => rel_num r1 (rel_frameFeature r1 fl hmem e he).1 _ hg hfit.obs)
  refine ⟨rel_winOk r2 (by intro hc; rw [hc] at h1; simp at h1), ?_, hsel, ?_⟩
  · have hs' := hs
    unfold selectGood at hs'
    obtain ⟨_, _, hs'⟩ := Res.bind_eq_ok.1 hs'
    obtain ⟨⟨w1', good1, pos1⟩, hl, hs'⟩ := Res.bind_eq_ok.1 hs'
    cases hs'
    rw [selectLoop_frm env _ _ _ _ _ _ _ hl, hw1]
  · refine lt_of_le_of_lt (startRow_le w2 (2 * (l.msgs.length * u.w.frm.extrinsics.length)) sel ?_) ?_
    · intro r hrs
      rw [(hsel r hrs).num]
      obtain ⟨⟨id, hid⟩, -⟩ := sel1 r hrs
      have hm := (rel_frameFeature r1 fl hmem _ hid).1
      rw [← k2.map] at hm
      exact Nat.mul_le_mul_left 2 (tracks_total _ (r2.tracks id r hm) hg)
    · exact lt_of_le_of_lt (Nat.mul_le_mul_right _ sel3) hfit.rows

end Selection

section Real
variable {T : Type} [TimeOps T] [TimeCast T ℝ]

/-- The assembled covariance is symmetric. -/
theorem constructCov_symm (s : PropQueue ℝ T) (m : FrameMgr ℝ T) (c : DMat ℝ) (hq : CovInv s) (hf : m.frames ≠ []) (hlt : (m.extrinsics.length + m.frames.length) * 6 < two32)
    (hc : constructCov s m = .ok (true, c)) : c.rows = hxCols m ∧ c.cols = hxCols m ∧ SymmTo (hxCols m) c.e := by
  have hpos : 0 < m.frames.length := List.length_pos_iff.2 hf
  cases hl : s.items with
  | nil =>
    unfold constructCov at hc
    rw [hl] at hc
    cases hc
  | cons i0 rest =>
    have hj := hq.psd i0 (by rw [hl]; simp)
    obtain ⟨gd, c', k1, k2, k3⟩ := C41_assembly s m i0 rest hl hf hlt hj.rows hj.cols hj.exRows hj.exCols.symm (hq.sq.trans hj.exCols.symm)
    obtain ⟨rfl, rfl⟩ : gd = true ∧ c' = c := by rw [k1] at hc; cases hc; exact ⟨rfl, rfl⟩
    obtain ⟨l1, l2, l3⟩ := k3 rfl
    have hsz : i0.imuEx.cols = 6 * (m.extrinsics.length + m.frames.length - 1) := by
      by_contra hcon
      exact absurd (k2.2 hcon) (by decide)
    have hcols : hxCols m = 15 + 6 * (m.extrinsics.length + m.frames.length - 1) := by
      unfold hxCols imuStateSize
      omega
    refine ⟨by omega, by omega, ?_⟩
    have hX : hxCols m = 15 + s.exCamCov.rows := by rw [hcols, ← hsz, ← hj.exCols]
    rw [hX]
    exact psd_symmTo (joint_psd i0 s.exCamCov c' _ (fun i j h1 h2 => l3 i j (by omega) (by omega)) hj.psd)

/-- The Kalman steps of two updates with different decompositions and orders of the features agree. -/
theorem solve_order (env env' : Env ℝ) (hext : GoodExt env.ext) (hext' : GoodExt env'.ext) (noise : ℝ) (maxUsed : Nat)
    (u : Upd ℝ T) (ts thr : T) (l : Log ℝ T) (hr : Rel l u.w) (hg : ∀ m ∈ l.msgs, GoodObs u.w.frm.extrinsics.length m) (h1 : 1 ≤ l.msgs.length)
    (hfit : Fits u.w.frm.extrinsics.length l.msgs.length maxUsed) (hi : CovInv u.q) (m : FrameMgr ℝ T) (c c' : DMat ℝ) (w : Win ℝ T) (fs fs' : List Nat) (pos : Nat)
    (hm : updateNewest (u.q.resetOrigin ts thr).1 u.w.frm = .ok (true, m)) (hc : constructCov (u.q.resetOrigin ts thr).1 u.w.frm = .ok (true, c)) (hcc : Agree c c')
    (hs : selectGood env maxUsed { u.w with frm := m } u.pos = .ok (w, fs, pos)) (hp : fs.Perm fs')
    (hfeat : ∀ r ∈ fs, ∀ i j, i ≤ hxCols w.frm → j ≤ hxCols w.frm → gramAt (featEq env.ext w r) i j = gramAt (featEq env'.ext w r) i j) :
    Both KSame (solve env noise c w fs) (solve env' noise c' w fs') := by
  have hlen := hr.len
  have hlt : (u.w.frm.extrinsics.length + u.w.frm.frames.length) * 6 < two32 := by rw [hlen]; exact hfit.cols
  obtain ⟨f, fl, f1, f2, f3, f4, f5⟩ := selected_ready env maxUsed u _ m l hr hg h1 hfit hm
  obtain ⟨g1, g2, g3, g4⟩ := f5 w fs pos hs
  obtain ⟨n1, n2⟩ := updateNewest_length _ _ _ _ hm
  have hcols : hxCols w.frm = hxCols u.w.frm := by
    unfold hxCols
    rw [g2, n1, n2]
  obtain ⟨c1, c2, c3⟩ := constructCov_symm _ _ c (resetOrigin_cov u.q ts thr hi) (List.length_pos_iff.1 (by omega)) hlt hc
  rw [← hcols] at c1 c2 c3
  obtain ⟨hxr, hxr', k, k', m1, m2, m3, m4, m5, m6, m7, m8, m9, m10, m11, m12, m13, m14⟩ := kalman_perm env env' hext hext' noise c c' w l.base g1 fs fs' g3 g4 c1 c2
    (by rw [← hcc.rows]; exact c1) (by rw [← hcc.cols]; exact c2) (fun i j hi hj => hcc.at' i j (by omega) (by omega)) c3 hp hfeat
  unfold solve
  rw [m1, m2]
  simp only [Res.bind_ok]
  rw [m3, m4]
  refine ⟨⟨by rw [m5, m6], by rw [m7, m8], fun i j hi hj => ?_⟩, ⟨by rw [m9, m10], by rw [m11, m12], fun i j hi hj => m14 i j (by rw [← m9]; exact hi) (by rw [← m11]; exact hj)⟩⟩
  obtain rfl : j = 0 := by rw [m7] at hj; omega
  exact m13 i (by rw [← m5]; exact hi)

/-- C84 and C85 for one update.  Two updates from the same state, with different random numbers, contents of memory and decompositions, end in the same state, if all
triangulated features are used and the decompositions eliminate the landmarks alike. -/
theorem update_order (env env' : Env ℝ) (hext : GoodExt env.ext) (hext' : GoodExt env'.ext) (he : env.ext.svdLast = env'.ext.svdLast) (noise : ℝ) (maxUsed : Nat) (g : Vec3 ℝ)
    {u u' : Upd ℝ T} (ts thr : T) (h : USame u u') (l : Log ℝ T) (hr : Rel l u.w) (hg : ∀ m ∈ l.msgs, GoodObs u.w.frm.extrinsics.length m) (h1 : 1 ≤ l.msgs.length)
    (hfit : Fits u.w.frm.extrinsics.length l.msgs.length maxUsed) (hi : CovInv u.q)
    (hk : ∀ f, u.w.frm.frames.getLast? = some f → KeysDiffer env u.pos f.features.length ∧ KeysDiffer env' u.pos f.features.length ∧ f.features.length ≤ maxUsed)
    (hfeat : ∀ m w2 sel pos', updateNewest (u.q.resetOrigin ts thr).1 u.w.frm = .ok (true, m) → selectGood env maxUsed { u.w with frm := m } u.pos = .ok (w2, sel, pos') → ∀ r ∈ sel,
      ∀ i j, i ≤ hxCols w2.frm → j ≤ hxCols w2.frm → gramAt (featEq env.ext w2 r) i j = gramAt (featEq env'.ext w2 r) i j) :
    Both (fun x y => x.1 = y.1 ∧ USame x.2 y.2) (update env noise maxUsed g u ts thr) (update env' noise maxUsed g u' ts thr) := by
  have hlen := hr.len
  have hlt : (u.w.frm.extrinsics.length + u.w.frm.frames.length) * 6 < two32 := by rw [hlen]; exact hfit.cols
  refine update_same env env' noise maxUsed g ts thr h (by omega) hlt List.Perm (fun a b e => ?_) (fun m hm => ?_) (fun m c c' w fs fs' pos hm hc hcc hs hp hne => ?_)
  · cases a with
    | nil => rw [e.nil_eq]
    | cons x a =>
      cases b with
      | nil => exact absurd e.eq_nil (by simp)
      | cons y b => rfl
  · obtain ⟨f, fl, f1, f2, f3, f4, -⟩ := selected_ready env maxUsed u _ m l hr hg h1 hfit hm
    obtain ⟨k1, k2, k3⟩ := hk f f1
    rw [← f3] at k1 k2 k3
    exact selectGood_order env env' he maxUsed _ _ fl f2 f4 k1 k2 k3
  · exact solve_order env env' hext hext' noise maxUsed u ts thr l hr hg h1 hfit hi m c c' w fs fs' pos hm hc hcc hs hp (hfeat m w fs pos hm hs)

/-- C85 for one update.  Two updates from the same state with two correct libraries that return different orthogonal and eigenvector bases end in the same state, if the Jacobian of every
selected feature with respect to its landmark has full rank. -/
theorem C85_update (env env' : Env ℝ) (hext : GoodExt env.ext) (hext' : GoodExt env'.ext) (he : env.ext.svdLast = env'.ext.svdLast) (noise : ℝ) (maxUsed : Nat) (g : Vec3 ℝ)
    (u : Upd ℝ T) (ts thr : T) (l : Log ℝ T) (hF : u.q.F.rows = 15 ∧ u.q.F.cols = 15 ∧ u.q.G.rows = 15) (hq : ∀ i ∈ u.q.items, ItemSame i i) (hr : Rel l u.w)
    (hg : ∀ m ∈ l.msgs, GoodObs u.w.frm.extrinsics.length m) (h1 : 1 ≤ l.msgs.length) (hfit : Fits u.w.frm.extrinsics.length l.msgs.length maxUsed) (hi : CovInv u.q)
    (hk : ∀ f, u.w.frm.frames.getLast? = some f → KeysDiffer env u.pos f.features.length ∧ KeysDiffer env' u.pos f.features.length ∧ f.features.length ≤ maxUsed)
    (hrank : ∀ m w2 sel pos', updateNewest (u.q.resetOrigin ts thr).1 u.w.frm = .ok (true, m) → selectGood env maxUsed { u.w with frm := m } u.pos = .ok (w2, sel, pos') →
      ∀ r ∈ sel, LandmarkRank w2.frm (w2.feat.heap r)) :
    Both (fun x y => x.1 = y.1 ∧ USame x.2 y.2) (update env noise maxUsed g u ts thr) (update env' noise maxUsed g u ts thr) := by
  refine update_order env env' hext hext' he noise maxUsed g ts thr ⟨QSame.self _ hF.1 hF.2.1 hF.2.2 hq, rfl, rfl, Agree.refl _, rfl⟩ l hr hg h1 hfit hi hk ?_
  intro m w2 sel pos' hm hs r hrs i j hi hj
  obtain ⟨_, _, -, -, -, -, f5⟩ := selected_ready env maxUsed u _ m l hr hg h1 hfit hm
  obtain ⟨g1, -, g3, -⟩ := f5 w2 sel pos' hs
  exact featEq_gram env.ext env'.ext hext hext' w2 l.base g1 r (g3 r hrs) (hrank m w2 sel pos' hm hs r hrs) i j hi hj

end Real
end Update

namespace Backend
open Update

section Generic
variable {K T : Type} [Add K] [Sub K] [Mul K] [Neg K] [Div K] [Zero K] [One K] [ScalarFn K]
  [TimeOps T] [TimeCast T K]

/-- A frame has at most as many links as its message has ids. -/
theorem links_le {l : Log K T} {w : Win K T} (hr : Rel l w) (f : Frame K T) (m : FeatMsg K T) (h1 : w.frm.frames.getLast? = some f) (h2 : l.msgs.getLast? = some m) :
    f.features.length ≤ m.ids.length := by
  rw [List.getLast?_eq_getElem?] at h1 h2
  rw [← hr.len] at h2
  have hn : (f.features.map (·.1)).Nodup := (hr.frames _ f m h1 h2).nodup
  have := (List.subperm_of_subset hn (fun id hid => (frameOf_keys hr _ f m h1 h2 id).1 hid)).length_le
  rwa [List.length_map] at this

variable [LinearOrder T] [TimeLaws T] [CastLaws T K]

theorem step_period (p p' : BProc K T) (op : BOp K T) (o : BOut K T) (h : p.step op = .ok (p', o)) : p'.b.loader.imuPeriod = p.b.loader.imuPeriod := by
  cases op with
  | run env =>
    obtain ⟨⟨r, b'⟩, hb', hs⟩ := Res.bind_eq_ok.1 h
    cases hs
    show b'.loader.imuPeriod = _
    rw [runOnce_loader _ _ _ _ _ hb', pop_period]
  | imu m => cases h; rfl
  | feat m => cases h; exact push_period _ _ _
  | runTest => cases h; exact pop_period _
  | publishPropagate =>
    obtain ⟨_, _, hs⟩ := Res.bind_eq_ok.1 h
    cases hs; rfl
  | publishUpdate =>
    obtain ⟨_, _, hs⟩ := Res.bind_eq_ok.1 h
    cases hs; rfl
  | reset => cases h; rfl

/-- Every features message that is waiting or still to come has at most `U` ids. -/
def FewIds (U : Nat) (p : BProc K T) (ops : List (BOp K T)) : Prop := (∀ m ∈ p.b.loader.featMeas, m.ids.length ≤ U) ∧ ∀ m ∈ featMsgs ops, m.ids.length ≤ U

theorem push_ids (s : LoaderStatics T) (l : Loader K T) (m x : FeatMsg K T) (h : x ∈ (l.pushFeatures s m).loader.featMeas) : x ∈ l.featMeas ∨ x.ids = m.ids := by
  unfold Loader.pushFeatures at h
  split at h
  · exact .inl h
  · generalize (if TimeOps.isNaN l.offset = true then m.ts else l.offset) = off at h
    dsimp only at h
    split at h
    · rcases List.mem_append.1 h with h | h
      · exact .inl h
      · rw [List.mem_singleton.1 h]; exact .inr rfl
    · exact .inl h

theorem pop_sub (l : Loader K T) (m : FeatMsg K T) (h : m ∈ l.popOne.loader.featMeas) : m ∈ l.featMeas := by
  rw [← pop_feat l]
  exact List.mem_append_right _ h

theorem fewIds_step {U : Nat} {p p' : BProc K T} {op : BOp K T} {ops : List (BOp K T)} {o : BOut K T} (h : FewIds U p (op :: ops)) (hs : p.step op = .ok (p', o)) : FewIds U p' ops := by
  obtain ⟨h1, h2⟩ := h
  cases op with
  | run env =>
    obtain ⟨⟨r, b'⟩, hb', hs⟩ := Res.bind_eq_ok.1 hs
    cases hs
    refine ⟨fun m hm => h1 m ?_, h2⟩
    have hm : m ∈ b'.loader.featMeas := hm
    rw [runOnce_loader _ _ _ _ _ hb'] at hm
    exact pop_sub _ m hm
  | imu m => cases hs; exact ⟨h1, h2⟩
  | feat m =>
    cases hs
    refine ⟨fun x hx => ?_, fun x hx => h2 x (List.mem_cons_of_mem _ hx)⟩
    rcases push_ids _ _ _ _ hx with hx | hx
    · exact h1 x hx
    · rw [hx]; exact h2 m List.mem_cons_self
  | runTest => cases hs; exact ⟨fun m hm => h1 m (pop_sub _ m hm), h2⟩
  | publishPropagate =>
    obtain ⟨_, _, hs⟩ := Res.bind_eq_ok.1 hs
    cases hs; exact ⟨h1, h2⟩
  | publishUpdate =>
    obtain ⟨_, _, hs⟩ := Res.bind_eq_ok.1 hs
    cases hs; exact ⟨h1, h2⟩
  | reset => cases hs; exact ⟨h1, h2⟩

end Generic

section Real
variable {T : Type} [TimeOps T] [TimeCast T ℝ] [LinearOrder T] [TimeLaws T] [CastLaws T ℝ]

/-- Environments with the same correct library that may differ in random numbers, their conversion and the contents of memory, both with different scores in every run of `U` numbers. -/
def ScoresOnly (U : Nat) (env env' : Env ℝ) : Prop := env.ext = env'.ext ∧ GoodExt env.ext ∧ (∀ pos, KeysDiffer env pos U) ∧ ∀ pos, KeysDiffer env' pos U

/-- The invariant of the first of two histories. -/
structure FilterInv (nc N U : Nat) (p : BProc ℝ T) (ops : List (BOp ℝ T)) : Prop where
  stable : ∃ l, Stable False nc N U l p.b
  p0 : TimeOps.tlit 0 ≤ p.b.loader.imuPeriod
  p1 : TimeOps.mul p.b.loader.imuPeriod (TimeOps.tlit (55/100)) ≤ p.b.loader.imuPeriod
  good : GoodRun nc p ops
  cov : CovOk N nc p.b
  solvers : GoodSolvers ops

/-- The same, where no message has more features than may be used. -/
structure OrderInv (nc N U : Nat) (p : BProc ℝ T) (ops : List (BOp ℝ T)) : Prop extends FilterInv nc N U p ops where
  few : FewIds U p ops

theorem filterInv_step {nc N U : Nat} (hfit : Fits nc (max 1 N + 1) U) {p p' : BProc ℝ T} {op : BOp ℝ T} {ops : List (BOp ℝ T)} {o : BOut ℝ T} (h : FilterInv nc N U p (op :: ops))
    (hs : p.step op = .ok (p', o)) : FilterInv nc N U p' ops := by
  obtain ⟨l, hl⟩ := h.stable
  obtain ⟨p2, outs, r1, r2⟩ := safe_run nc N U hfit [op] p l hl h.p0 h.p1 ⟨h.good.1, fun _ _ _ => trivial⟩
  have hr : p.run [op] = .ok (p', [o]) := by rw [BProc.run, hs]; rfl
  rw [hr] at r1
  cases r1
  have hper := step_period _ _ _ _ hs
  refine ⟨r2, by rw [hper]; exact h.p0, by rw [hper]; exact h.p1, h.good.2 _ _ hs, ?_, fun env hm => h.solvers env (List.mem_cons_of_mem _ hm)⟩
  exact covOk_run N nc hfit.cols [op] p p' [o] (fun env hm => h.solvers env (by rw [List.mem_singleton.1 hm]; exact List.mem_cons_self)) h.cov hr

theorem orderInv_step {nc N U : Nat} (hfit : Fits nc (max 1 N + 1) U) {p p' : BProc ℝ T} {op : BOp ℝ T} {ops : List (BOp ℝ T)} {o : BOut ℝ T} (h : OrderInv nc N U p (op :: ops))
    (hs : p.step op = .ok (p', o)) : OrderInv nc N U p' ops := ⟨filterInv_step hfit h.toFilterInv hs, fewIds_step h.few hs⟩

/-- The state of the window and the filter when `RunOnce` has inserted a message and tried to initialise. -/
structure FilterReady (nc N U : Nat) (m : FeatMsg ℝ T) (l : Log ℝ T) (b : Backend ℝ T) : Prop where
  core : Core nc N U l b
  last : l.msgs.getLast? = some m
  len : l.msgs.length ≤ max 1 N + 1
  cov : CovInv b.u.q
  live : b.status = .initialized → 2 ≤ l.msgs.length ∧ Live False b.u.q b.att.items (6 * (nc + l.msgs.length - 1))

/-- The same, where the message has no more features than may be used. -/
structure UpdReady (nc N U : Nat) (m : FeatMsg ℝ T) (l : Log ℝ T) (b : Backend ℝ T) : Prop extends FilterReady nc N U m l b where
  ids : m.ids.length ≤ U

theorem filter_ready {nc N U : Nat} {p : BProc ℝ T} (env : Env ℝ) {ops : List (BOp ℝ T)} (h : FilterInv nc N U p (.run env :: ops)) (res : Bool) (b1 : Backend ℝ T) (m : FeatMsg ℝ T)
    (hi : onImu p.g { p.b with loader := p.b.loader.popOne.loader } p.b.loader.popOne.out.imuMeas = .ok (res, b1)) (hm : p.b.loader.popOne.out.featMeas = some m) :
    b1.u.w.feat.WF ∧ ∃ l, Core nc N U l (b1.setWin (b1.u.w.insert m)) ∧ (b1.status = .needInit → b1.u.q.items = []) ∧ TimeOps.tlit 0 ≤ b1.loader.imuPeriod ∧
      TimeOps.mul b1.loader.imuPeriod (TimeOps.tlit (55/100)) ≤ b1.loader.imuPeriod ∧
      ∀ b2, (b1.setWin (b1.u.w.insert m)).tryInit env p.g = .ok b2 → ∃ l1, FilterReady nc N U m l1 b2 := by
  obtain ⟨l0, hl0⟩ := h.stable
  obtain ⟨l, hl, hb1⟩ := stable_base hl0
  obtain ⟨g1, g2, g3⟩ := callOk_msg hl hb1 env h.good.1 m hm
  obtain ⟨r', b1', i1, i2, -⟩ := onImu_ok False p.g p.b.loader.popOne.out.imuMeas (stable_loader hl p.b.loader.popOne.loader) (fun hf => hf.elim)
  rw [hi] at i1
  cases i1
  have hload : b1.loader = p.b.loader.popOne.loader := (onImu_keep _ _ _ _ _ hi).1
  have hper : b1.loader.imuPeriod = p.b.loader.imuPeriod := by rw [hload, pop_period]
  obtain ⟨c1, d1, d2⟩ := core_insert i2.toCore m g1 g2 g3
  have hne : (l.step (.insert m)).msgs ≠ [] := by rw [d1]; simp
  have hl1 : (l.step (.insert m)).msgs.length = l.msgs.length + 1 := by rw [d1]; simp
  have h0 : TimeOps.tlit 0 ≤ b1.loader.imuPeriod := by rw [hper]; exact h.p0
  have h1 : TimeOps.mul b1.loader.imuPeriod (TimeOps.tlit (55/100)) ≤ b1.loader.imuPeriod := by rw [hper]; exact h.p1
  refine ⟨i2.rel.wf, _, c1, fun hs => (i2.idle hs).2, h0, h1, fun b2 ht => ?_⟩
  obtain ⟨b2', l1, t1, t2, t3, t4, t5, t6, t7⟩ := tryInit_ok False env p.g c1 hne (fun hs => ⟨by
    have := (i2.idle hs).1
    omega, (i2.idle hs).2⟩) h0 h1
  rw [ht] at t1
  cases t1
  have hlast : l1.msgs.getLast? = some m := by rw [t3.last, d1]; simp
  refine ⟨l1, t2, hlast, ?_, ?_, ?_⟩
  · have a1 := t3.sub.length_le
    have a2 := i2.len
    rw [d1, List.length_append, List.length_singleton] at a1
    omega
  · have hb0 : CovOk N nc { p.b with loader := p.b.loader.popOne.loader } := ⟨h.cov.cov, h.cov.bound, h.cov.cams, h.cov.dims⟩
    exact (tryInit_cov env p.g _ b2 ht (onImu_cov _ _ _ _ _ _ _ hb0 hi).cov).1
  · intro hst
    cases hs : b1.status with
    | initialized =>
      obtain ⟨e1, e2⟩ := t6 hs
      obtain ⟨v1, v2⟩ := i2.live hs
      subst e2
      rw [e1]
      refine ⟨by omega, ?_⟩
      rw [show 6 * (nc + (l.step (.insert m)).msgs.length - 1) = 6 * (nc + l.msgs.length) from by rw [hl1]; omega]
      exact v2
    | needInit =>
      rcases t7 hs with ⟨k1, -⟩ | ⟨-, k2, k3⟩
      · rw [k1] at hst; cases hst
      · exact ⟨by omega, by rw [k2]; exact k3⟩

theorem order_ready {nc N U : Nat} {p : BProc ℝ T} (env : Env ℝ) {ops : List (BOp ℝ T)} (h : OrderInv nc N U p (.run env :: ops)) (res : Bool) (b1 : Backend ℝ T) (m : FeatMsg ℝ T)
    (hi : onImu p.g { p.b with loader := p.b.loader.popOne.loader } p.b.loader.popOne.out.imuMeas = .ok (res, b1)) (hm : p.b.loader.popOne.out.featMeas = some m) :
    b1.u.w.feat.WF ∧ ∃ l, Core nc N U l (b1.setWin (b1.u.w.insert m)) ∧ (b1.status = .needInit → b1.u.q.items = []) ∧ TimeOps.tlit 0 ≤ b1.loader.imuPeriod ∧
      TimeOps.mul b1.loader.imuPeriod (TimeOps.tlit (55/100)) ≤ b1.loader.imuPeriod ∧
      ∀ b2, (b1.setWin (b1.u.w.insert m)).tryInit env p.g = .ok b2 → ∃ l1, UpdReady nc N U m l1 b2 := by
  obtain ⟨h0, l, h1, h2, h3, h4, h5⟩ := filter_ready env h.toFilterInv res b1 m hi hm
  refine ⟨h0, l, h1, h2, h3, h4, fun b2 ht => ?_⟩
  obtain ⟨l1, t⟩ := h5 b2 ht
  exact ⟨l1, t, h.few.1 m (by rw [← pop_feat, hm]; simp)⟩

/-- The updates of two histories that differ in the random numbers agree. -/
theorem updates_order {nc N U : Nat} (hfit : Fits nc (max 1 N + 1) U) {p : BProc ℝ T} (env env' : Env ℝ) {ops : List (BOp ℝ T)} (h : OrderInv nc N U p (.run env :: ops))
    (he : ScoresOnly U env env') : UpdatesAgree env env' p := by
  intro res b1 b2 b2' m hi hm ht hs hst
  obtain ⟨e1, e2, e3, e4⟩ := he
  obtain ⟨-, l, -, -, -, -, hr⟩ := order_ready env h res b1 m hi hm
  obtain ⟨l1, t⟩ := hr b2 ht
  refine update_order env env' e2 (e1 ▸ e2) (by rw [e1]) _ _ _ _ _ hs.u l1 t.core.rel (by rw [t.core.ext]; exact t.core.obs) ?_ ?_ t.cov ?_ ?_
  · have := (t.live hst).1
    omega
  · rw [t.core.ext, t.core.used]; exact hfit.mono t.len
  · intro f hf
    have hle := (links_le t.core.rel f m hf t.last).trans t.ids
    exact ⟨(e3 _).mono hle, (e4 _).mono hle, by rw [t.core.used]; exact hle⟩
  · intro _ _ _ _ _ _ _ _ _ _ _ _
    rw [e1]

/-- C84: two histories of a well-formed tracker that differ only in the random scores of the features, and in the contents of memory, return the same values, if no message has more features
than may be used and the scores differ. -/
theorem C84_scores (p : BProc ℝ T) (ops ops' : List (BOp ℝ T)) (hf : Fresh p.b) (hr : Ready p.b) (hg : GoodRun p.b.u.w.frm.extrinsics.length p ops)
    (hids : ∀ m ∈ featMsgs ops, m.ids.length ≤ p.b.maxUsed) (hops : List.Forall₂ (OpSame (ScoresOnly p.b.maxUsed)) ops ops')
    (na ng nwa nwg : ℝ) (h1 : 0 ≤ na) (h2 : 0 ≤ ng) (h3 : 0 ≤ nwa) (h4 : 0 ≤ nwg) (st : Motion ℝ) (ba bg : Vec3 ℝ)
    (hq : p.b.u.q = { PropQueue.init st with Q := PropQueue.noiseMatrix na ng nwa nwg, biasA := ba, biasG := bg }) :
    outputs p ops = outputs p ops' ∧ ∃ os, outputs p ops = .ok os := by
  have hsolv : GoodSolvers ops := by
    intro env hm
    clear hids hg
    induction hops with
    | nil => cases hm
    | cons ho _ ih =>
      rcases List.mem_cons.1 hm with rfl | hm
      · cases ho with
        | run _ _ he => exact he.2.1
      · exact ih hm
  have hqs : QSame p.b.u.q p.b.u.q := by
    rw [hq]
    exact QSame.self _ rfl rfl rfl (by intro i hi; cases hi)
  have hp : PSame p p := ⟨rfl, rfl, rfl, ⟨hqs, rfl, rfl, Agree.refl _, rfl⟩, rfl, rfl, rfl, rfl, rfl, rfl⟩
  have hinv : OrderInv p.b.u.w.frm.extrinsics.length p.b.u.w.frm.maxWindowSize p.b.maxUsed p ops :=
    ⟨⟨⟨_, fresh_stable p.b hf hr⟩, hr.period, hr.half, hg, covOk_start p.b na ng nwa nwg h1 h2 h3 h4 st ba bg hq hf.frames hf.status, hsolv⟩, by rw [hf.feat]; simp, hids⟩
  constructor
  · exact (run_same (ScoresOnly p.b.maxUsed) (fun env env' he => ⟨by rw [he.1], by rw [he.1]⟩)
      (OrderInv p.b.u.w.frm.extrinsics.length p.b.u.w.frm.maxWindowSize p.b.maxUsed) (fun _ _ _ _ _ h hs => orderInv_step hr.fits h hs)
      (fun q env env' ops1 h he => updates_order hr.fits env env' h he) hops p p hp hinv).outputs (R := PSame)
  · obtain ⟨p', outs, h⟩ := C68_no_ub_partial p ops hf hr hg
    exact ⟨outs, by unfold outputs; rw [h]⟩

end Real
/-! ### Concrete cases -/

theorem keysDiffer_of_injective {K : Type} (env : Env K) (h : Function.Injective (fun i => env.key (env.rnd i))) (pos n : Nat) : KeysDiffer env pos n :=
  List.Nodup.map h List.nodup_range'

/-- A random stream in which neighbours are exchanged, so the two features of the example change places. -/
def exSwap (n : Nat) : Nat := if n % 2 = 0 then n + 1 else n - 1

theorem exSwap_injective : Function.Injective exSwap := by
  intro a b h
  unfold exSwap at h
  split at h <;> split at h <;> omega

/-- C84: the example history over the reals with two random streams and contents of memory. -/
example : ∃ ext : Ext ℝ, GoodExt ext ∧ outputs (⟨{}, ⟨0, 0, 10⟩, exReal⟩ : BProc ℝ ℝ) (exRealOps ⟨ext, id, id, fun _ _ => 0⟩) =
    outputs (⟨{}, ⟨0, 0, 10⟩, exReal⟩ : BProc ℝ ℝ) (exRealOps ⟨ext, exSwap, id, fun _ _ => 5⟩) := by
  obtain ⟨ext, hext, -⟩ := exists_goodExt ⟨fun _ _ => 0, fun _ v => v, fun _ _ => ⟨0, 0⟩, fun _ _ _ => 0, fun _ _ => 0, fun _ _ _ => 0⟩
  have hobs : ∀ t, MsgOk 1 (exRealMsg t) := by
    intro t
    refine ⟨by show [4, 7].Nodup; decide, rfl, ?_⟩
    intro o ho
    have : o = ⟨[(0, ⟨1, 2⟩)]⟩ ∨ o = ⟨[(0, ⟨3, 1⟩)]⟩ := by simpa [exRealMsg] using ho
    rcases this with rfl | rfl <;> simp
  have hr : Ready exReal := by
    refine ⟨rfl, ?_, ?_, ⟨by decide, by decide, by decide⟩⟩
    · show (((0 : ℚ) : ℝ)) ≤ 1 / 10; norm_num
    · show (1 / 10 : ℝ) * ((55 / 100 : ℚ) : ℝ) ≤ 1 / 10; norm_num
  have hmem : ∀ m ∈ featMsgs (exRealOps ⟨ext, id, id, fun _ _ => 0⟩), m = exRealMsg 1 ∨ m = exRealMsg 2 := by
    intro m hm
    simpa [exRealOps, featMsgs] using hm
  have hf : Fresh exReal := ⟨rfl, rfl, rfl, rfl, rfl, rfl, rfl⟩
  have hgood := tracker_goodRun (⟨{}, ⟨0, 0, 10⟩, exReal⟩ : BProc ℝ ℝ) (exRealOps ⟨ext, id, id, fun _ _ => 0⟩) hf hr
    (by intro op hop h; subst h; revert hop; simp [exRealOps])
    (by intro m hm; rcases hmem m hm with rfl | rfl <;> exact hobs _)
    (by intro x y z h; have := h.length_le; simp [exRealOps, featMsgs] at this) (by show 2 + 1 < two32; decide)
  have he : ScoresOnly exReal.maxUsed ⟨ext, id, id, fun _ _ => 0⟩ ⟨ext, exSwap, id, fun _ _ => 5⟩ :=
    ⟨rfl, hext, fun pos => keysDiffer_of_injective _ (fun _ _ h => h) pos _, fun pos => keysDiffer_of_injective _ exSwap_injective pos _⟩
  refine ⟨ext, hext, (C84_scores (⟨{}, ⟨0, 0, 10⟩, exReal⟩ : BProc ℝ ℝ) _ _ hf hr hgood ?_ ?_ 1 2 3 4 (by norm_num) (by norm_num) (by norm_num) (by norm_num) ⟨0, 0, .one⟩ 0 0 rfl).1⟩
  · intro m hm
    rcases hmem m hm with rfl | rfl
    · show 2 ≤ 20; omega
    · show 2 ≤ 20; omega
  · exact .cons (.imu _) (.cons (.run _ _ he) (.cons (.feat _) (.cons (.run _ _ he) (.cons (.imu _) (.cons (.feat _) (.cons (.run _ _ he) (.cons .publishUpdate .nil)))))))

/-- C84 needs different scores: with equal scores, which `std::rand()` converted to `float` can give, only one of ten triangulated features is used. -/
theorem C84_collision : (exProc.run (exOps 10)).check (fun r => decide (r.1.b.u.features.length = 10)) = true ∧
    (exProc.run [.imu (exImu 0), .feat (exMsg 10 0), .run exEnv, .imu (exImu 1), .feat (exMsg 10 1), .run { exEnv with key := fun _ => 0 }]).check
      (fun r => decide (r.1.b.u.features = [0])) = true := by
  decide +kernel

end Backend

namespace Update
open Matrix

/-- Four rows: three landmark columns, of which the last is `d` in the third row, and one more column. -/
def exLand (d : ℝ) : DMat ℝ := ⟨4, 4, fun i j => if i = j then (if i = 2 then d else 1) else 0⟩

/-- Reverse the last two rows. -/
def exLast (i j : Nat) : ℝ := if i < 2 ∧ i = j then 1 else if (i = 2 ∧ j = 3) ∨ (i = 3 ∧ j = 2) then 1 else 0

theorem exLand_qr : IsQR ⟨4, 3, (exLand 0).e⟩ (fun i j => if i = j then 1 else 0) ∧ IsQR ⟨4, 3, (exLand 0).e⟩ exLast := by
  refine ⟨⟨?_, ?_⟩, ⟨?_, ?_⟩⟩
  · ext i j
    fin_cases i <;> fin_cases j <;> simp [Matrix.mul_apply, Fin.sum_univ_four]
  · intro i j
    fin_cases i <;> fin_cases j <;> simp [Matrix.mul_apply, Fin.sum_univ_four, DMat.toM, exLand]
  · ext i j
    fin_cases i <;> fin_cases j <;> simp [Matrix.mul_apply, Fin.sum_univ_four, exLast]
  · intro i j
    fin_cases i <;> fin_cases j <;> simp [Matrix.mul_apply, Fin.sum_univ_four, DMat.toM, exLand, exLast]

/-- Both factors even make the matrix upper triangular. -/
theorem exLand_upper (i : Fin 4) (j : Fin 3) (h : j.val < i.val) : ∑ k : Fin 4, (if k.val = i.val then (1 : ℝ) else 0) * (exLand 0).e k j = 0 ∧
    ∑ k : Fin 4, exLast k i * (exLand 0).e k j = 0 := by
  revert h
  fin_cases i <;> fin_cases j <;> simp [Fin.sum_univ_four, exLand, exLast]

/-- C85: with independent landmark columns the hypotheses are met. -/
example : (((exLand 2).toM (1 + 3) 3)ᵀ * (exLand 2).toM (1 + 3) 3).det ≠ 0 := by
  rw [Matrix.det_fin_three]
  simp [Matrix.mul_apply, Fin.sum_univ_four, DMat.toM, exLand]

/-- C85 needs the rank: with a landmark whose depth is not observed, two correct QR decompositions give projected equations that carry different information. -/
theorem C85_needs_rank : ∃ (ext ext' : Ext ℝ) (a b b' : DMat ℝ), GoodExt ext ∧ GoodExt ext' ∧ a.rows = 4 ∧ a.cols = 4 ∧ project ext a = .ok b ∧ project ext' a = .ok b' ∧
    gramAt b 0 0 = 1 ∧ gramAt b' 0 0 = 0 := by
  classical
  obtain ⟨ext, hext, -⟩ := exists_goodExt ⟨fun _ _ => 0, fun _ v => v, fun _ _ => ⟨0, 0⟩, fun _ _ _ => 0, fun _ _ => 0, fun _ _ _ => 0⟩
  have hgood : ∀ q, IsQR ⟨4, 3, (exLand 0).e⟩ q → GoodExt { ext with qrQ := fun h => if h = ⟨4, 3, (exLand 0).e⟩ then q else ext.qrQ h } := by
    intro q hq
    refine ⟨fun h => ?_, hext.eig⟩
    dsimp only
    split
    · next e => rw [e]; exact hq
    · exact hext.qr h
  have hb : ∀ q, project { ext with qrQ := fun h => if h = ⟨4, 3, (exLand 0).e⟩ then q else ext.qrQ h } (exLand 0) =
      .ok ⟨1, 1, fun i j => sumTo 4 (fun k => q k (3 + i) * (exLand 0).e k (3 + j))⟩ := by
    intro q
    have hblk : (exLand 0).block 0 0 (exLand 0).rows 3 = .ok ⟨4, 3, (exLand 0).e⟩ := by
      simp [DMat.block, exLand]
    unfold project
    rw [hblk, Res.bind_ok]
    dsimp only
    simp [applyQt, DMat.block, exLand]
  refine ⟨_, _, exLand 0, _, _, hgood _ exLand_qr.1, hgood _ exLand_qr.2, rfl, rfl, hb _, hb _, ?_, ?_⟩
  · simp [gramAt, sumTo, exLand]
  · simp [gramAt, sumTo, exLand, exLast]

end Update
end Vio
