/-
The invariant of a backend that is fed well-formed messages: every step of `RunOnce` is free of undefined behaviour and keeps it.
-/
import Verif.Lemmas.InitOk

set_option linter.unusedSectionVars false

namespace Vio
open Spec WinSpec AttSpec Update

variable {K T : Type} [Add K] [Sub K] [Mul K] [Neg K] [Div K] [Zero K] [One K] [ScalarFn K]
  [TimeOps T] [TimeCast T K]

theorem Update.Fits.mono {nc n n' U : Nat} (h : Fits nc n' U) (hn : n ≤ n') : Fits nc n U := by
  have h1 : n * nc ≤ n' * nc := Nat.mul_le_mul_right _ hn
  have h2 : U * (2 * (n * nc)) ≤ U * (2 * (n' * nc)) := Nat.mul_le_mul_left _ (by omega)
  exact ⟨lt_of_le_of_lt (by omega) h.cols, lt_of_le_of_lt (by omega) h.obs, lt_of_le_of_lt h2 h.rows⟩

theorem removeFrame_keep (m : FrameMgr K T) (i : Nat) : (m.removeFrame i).1.extrinsics = m.extrinsics ∧ (m.removeFrame i).1.maxWindowSize = m.maxWindowSize := by
  unfold FrameMgr.removeFrame
  split <;> exact ⟨rfl, rfl⟩

theorem marginalize_keep (w w' : Win K T) (p : MargPolicy) (h : w.marginalize p = .ok w') :
    w'.frm.extrinsics = w.frm.extrinsics ∧ w'.frm.maxWindowSize = w.frm.maxWindowSize := by
  cases p with
  | noMarg => cases h; exact ⟨rfl, rfl⟩
  | margOldest =>
    obtain ⟨_, _, h⟩ := Res.bind_eq_ok.1 h
    obtain ⟨_, _, h⟩ := Res.bind_eq_ok.1 h
    cases h; exact removeFrame_keep _ _
  | margSubnew =>
    obtain ⟨_, _, h⟩ := Res.bind_eq_ok.1 h
    obtain ⟨_, _, h⟩ := Res.bind_eq_ok.1 h
    cases h; exact removeFrame_keep _ _
  | margNewest =>
    obtain ⟨_, _, h⟩ := Res.bind_eq_ok.1 h
    obtain ⟨_, _, h⟩ := Res.bind_eq_ok.1 h
    cases h; exact removeFrame_keep _ _

theorem marginalize_addr (w w' : Win K T) (p : MargPolicy) (ha : AddrOk w.frm) (h : w.marginalize p = .ok w') : AddrOk w'.frm :=
  addrOk_run [.marg p] w w' ha (by simp [Win.run, Win.step, h])

namespace Backend

/-- How the log shrinks inside a `RunOnce`: messages leave, the newest stays, ids do not grow. -/
structure Shrinks (l l' : Log K T) : Prop where
  sub : l'.msgs.Sublist l.msgs
  top : l'.base + l'.msgs.length ≤ l.base + l.msgs.length
  last : l'.msgs.getLast? = l.msgs.getLast?
  base : l.base ≤ l'.base

theorem Shrinks.refl (l : Log K T) : Shrinks l l := ⟨List.Sublist.refl _, le_rfl, rfl, le_rfl⟩

theorem Shrinks.trans {a b c : Log K T} (h1 : Shrinks a b) (h2 : Shrinks b c) : Shrinks a c :=
  ⟨h2.sub.trans h1.sub, h2.top.trans h1.top, h2.last.trans h1.last, h1.base.trans h2.base⟩

/-- Window and parameters of a backend; `l` is the log of the messages in the window. -/
structure Core (nc N U : Nat) (l : Log K T) (b : Backend K T) : Prop where
  mounted : b.mounted = true
  ext : b.u.w.frm.extrinsics.length = nc
  size : b.u.w.frm.maxWindowSize = N
  used : b.maxUsed = U
  rel : Rel l b.u.w
  addr : AddrOk b.u.w.frm
  obs : ∀ m ∈ l.msgs, GoodObs nc m
  base : 1 ≤ l.base
  sorted : Sorted b.att.items

/-- Marginalising the oldest of at least two frames. -/
theorem margOldest_ok (l : Log K T) (w : Win K T) (h : Rel l w) (ha : AddrOk w.frm) (h2 : 2 ≤ l.msgs.length) :
    ∃ w', w.marginalize .margOldest = .ok w' ∧ Rel (l.step (.marg .margOldest)) w' ∧ AddrOk w'.frm ∧ w'.frm.extrinsics = w.frm.extrinsics ∧
      w'.frm.maxWindowSize = w.frm.maxWindowSize ∧ Shrinks l (l.step (.marg .margOldest)) ∧ (l.step (.marg .margOldest)).msgs.length + 1 = l.msgs.length := by
  obtain ⟨w', h1, hr⟩ := rel_step l w h (.marg .margOldest) (by show l.msgs ≠ []; intro hc; rw [hc] at h2; simp at h2)
  have h1 : w.marginalize .margOldest = .ok w' := h1
  obtain ⟨k1, k2⟩ := marginalize_keep w w' _ h1
  refine ⟨w', h1, hr, marginalize_addr w w' _ ha h1, k1, k2, ⟨List.tail_sublist _, ?_, ?_, ?_⟩, ?_⟩
  · show l.base + 1 + l.msgs.tail.length ≤ _
    rw [List.length_tail]; omega
  · show l.msgs.tail.getLast? = _
    rw [List.getLast?_tail, if_neg (by omega)]
  · show l.base ≤ l.base + 1
    omega
  · show l.msgs.tail.length + 1 = _
    rw [List.length_tail]; omega

/-- The shrinking loop leaves exactly one frame. -/
theorem shrink_ok (n : Nat) : ∀ (l : Log K T) (w : Win K T), Rel l w → AddrOk w.frm → l.msgs ≠ [] → l.msgs.length ≤ n + 1 →
    ∃ w' l', shrink n w = .ok w' ∧ Rel l' w' ∧ AddrOk w'.frm ∧ w'.frm.extrinsics = w.frm.extrinsics ∧ w'.frm.maxWindowSize = w.frm.maxWindowSize ∧
      Shrinks l l' ∧ l'.msgs.length = 1 := by
  induction n with
  | zero =>
    intro l w h ha hne hl
    have := List.length_pos_iff.2 hne
    exact ⟨w, l, rfl, h, ha, rfl, rfl, .refl l, by omega⟩
  | succ n ih =>
    intro l w h ha hne hl
    rw [shrink]
    have hpos := List.length_pos_iff.2 hne
    by_cases h2 : 2 ≤ l.msgs.length
    · rw [if_pos (by rw [h.len]; omega)]
      obtain ⟨w1, m1, m2, m3, m4, m5, m6, m7⟩ := margOldest_ok l w h ha h2
      rw [m1, Res.bind_ok]
      obtain ⟨w', l', s1, s2, s3, s4, s5, s6, s7⟩ := ih _ w1 m2 m3 (by intro hc; rw [hc] at m7; simp at m7; omega) (by omega)
      exact ⟨w', l', s1, s2, s3, s4.trans m4, s5.trans m5, m6.trans s6, s7⟩
    · rw [if_neg (by rw [h.len]; omega)]
      exact ⟨w, l, rfl, h, ha, rfl, rfl, .refl l, by omega⟩

/-- Replacing the window by an equivalent one. -/
theorem Core.keep {nc N U : Nat} {l : Log K T} {b : Backend K T} (h : Core nc N U l b) (b' : Backend K T) (h1 : b'.mounted = b.mounted) (h2 : b'.maxUsed = b.maxUsed)
    (h3 : KeepWin b.u.w b'.u.w) (h4 : b'.att.items <:+ b.att.items) : Core nc N U l b' :=
  ⟨h1.trans h.mounted, h3.ext.trans h.ext, h3.size.trans h.size, h2.trans h.used, rel_keep h.rel h3, addrOk_keep h.addr h3, h.obs, h.base, h.sorted.sublist h4.sublist⟩

theorem shrunk_ok {nc N U : Nat} {l : Log K T} {b : Backend K T} (h : Core nc N U l b) (hne : l.msgs ≠ []) :
    ∃ w' l', b.shrunk = .ok (b.setWin w') ∧ Core nc N U l' (b.setWin w') ∧ Shrinks l l' ∧ l'.msgs.length = 1 := by
  obtain ⟨w', l', s1, s2, s3, s4, s5, s6, s7⟩ := shrink_ok b.u.w.frm.frames.length l b.u.w h.rel h.addr hne (by rw [h.rel.len]; omega)
  refine ⟨w', l', ?_, ?_, s6, s7⟩
  · unfold shrunk
    rw [s1, Res.bind_ok]
  · exact ⟨h.mounted, (congrArg List.length s4).trans h.ext, s5.trans h.size, h.used, s2, s3, fun m hm => h.obs m (s6.sub.subset hm), h.base.trans s6.base, h.sorted⟩

/-- Inserting a well-behaved message. -/
theorem core_insert {nc N U : Nat} {l : Log K T} {b : Backend K T} (h : Core nc N U l b) (m : FeatMsg K T) (hg : GoodMsg l m) (ho : GoodObs nc m)
    (hb : l.base + l.msgs.length + 1 < two32) :
    Core nc N U (l.step (.insert m)) (b.setWin (b.u.w.insert m)) ∧ (l.step (.insert m)).msgs = l.msgs ++ [m] ∧ (l.step (.insert m)).base ≤ l.base := by
  have e : (l.step (.insert m)).msgs = l.msgs ++ [m] := by
    unfold Log.step
    dsimp only
    split
    · rename_i h0; rw [h0]; rfl
    · rfl
  have e2 : 1 ≤ (l.step (.insert m)).base ∧ (l.step (.insert m)).base ≤ l.base := by
    have := h.base
    unfold Log.step
    dsimp only
    split
    · exact ⟨le_rfl, this⟩
    · exact ⟨this, le_rfl⟩
  refine ⟨⟨h.mounted, h.ext, h.size, h.used, rel_insert l b.u.w h.rel m hg hb, addrOk_insert b.u.w h.addr m, ?_, e2.1, h.sorted⟩, e, e2.2⟩
  intro x hx
  rw [e] at hx
  rcases List.mem_append.1 hx with hx | hx
  · exact h.obs x hx
  · rw [List.mem_singleton.1 hx]; exact ho

section Time
variable [LinearOrder T] [TimeLaws T] [CastLaws T K]

/-- Between two calls. -/
structure Stable (ord : Prop) (nc N U : Nat) (l : Log K T) (b : Backend K T) : Prop extends Core nc N U l b where
  len : l.msgs.length ≤ max 1 N
  idle : b.status = .needInit → l.msgs.length ≤ 1 ∧ b.u.q.items = []
  live : b.status = .initialized → 1 ≤ l.msgs.length ∧ Live ord b.u.q b.att.items (6 * (nc + l.msgs.length))

theorem tryInit_ok (ord : Prop) (env : Env K) (g : Vec3 K) {nc N U : Nat} {l : Log K T} {b : Backend K T} (h : Core nc N U l b) (hne : l.msgs ≠ [])
    (hi : b.status = .needInit → l.msgs.length ≤ 2 ∧ b.u.q.items = [])
    (h0 : TimeOps.tlit 0 ≤ b.loader.imuPeriod) (h1 : TimeOps.mul b.loader.imuPeriod (TimeOps.tlit (55/100)) ≤ b.loader.imuPeriod) :
    ∃ b' l', b.tryInit env g = .ok b' ∧ Core nc N U l' b' ∧ Shrinks l l' ∧ b'.att.items <:+ b.att.items ∧ b'.att.items.getLast? = b.att.items.getLast? ∧
      (b.status = .initialized → b' = b ∧ l' = l) ∧
      (b.status = .needInit → (b'.status = .needInit ∧ l'.msgs.length = 1 ∧ b'.u.q.items = []) ∨
        (b'.status = .initialized ∧ l'.msgs.length = 2 ∧ Live ord b'.u.q b'.att.items (6 * (nc + 1)))) := by
  unfold tryInit
  cases hs : b.status with
  | initialized => exact ⟨b, l, rfl, h, .refl l, List.suffix_refl _, rfl, fun _ => ⟨rfl, rfl⟩, by simp⟩
  | needInit =>
    obtain ⟨hl, hq⟩ := hi hs
    dsimp only
    obtain ⟨good, b1, i1, i2, i3, i4, i5, i6⟩ := initialise_ok env g b l ord h.mounted h.rel (by rw [h.ext]; exact h.obs) h.sorted hq h0 h1
    obtain ⟨att, q, w, hb1, -⟩ := initialise_keep env g b b1 good i1
    have c1 : Core nc N U l b1 := h.keep b1 (by rw [hb1]) (by rw [hb1]) i2 i3
    have hs1 : b1.status = .needInit := by rw [hb1]; exact hs
    rw [i1, Res.bind_ok]
    cases good with
    | true =>
      obtain ⟨j1, j2⟩ := i6 rfl
      rw [h.ext] at j2
      refine ⟨_, l, rfl, ⟨c1.mounted, c1.ext, c1.size, c1.used, c1.rel, c1.addr, c1.obs, c1.base, c1.sorted⟩, .refl l, i3, i4, by simp, fun _ => .inr ⟨rfl, by omega, j2⟩⟩
    | false =>
      obtain ⟨w', l', s1, s2, s3, s4⟩ := shrunk_ok c1 hne
      refine ⟨b1.setWin w', l', s1, s2, s3, i3, i4, by simp, fun _ => .inl ⟨hs1, s4, i5 rfl⟩⟩

/-- The policy the updater chooses can be carried out. -/
theorem policy_ok (l : Log K T) (w w1 : Win K T) (p : MargPolicy) (h : Rel l w) (h1 : Rel l w1) (ha : AddrOk w.frm) (ha1 : AddrOk w1.frm) (h2 : 2 ≤ l.msgs.length)
    (hp : decidePolicy w = .ok p) :
    ∃ w', w1.marginalize p = .ok w' ∧ ∃ l', Rel l' w' ∧ AddrOk w'.frm ∧ w'.frm.extrinsics = w1.frm.extrinsics ∧ w'.frm.maxWindowSize = w1.frm.maxWindowSize ∧
      Shrinks l l' ∧ l'.msgs.length + dropped p = l.msgs.length ∧ (dropped p = 0 → l.msgs.length ≤ w.frm.maxWindowSize) := by
  cases p with
  | noMarg =>
    refine ⟨w1, rfl, l, h1, ha1, rfl, rfl, .refl l, rfl, fun _ => ?_⟩
    by_contra hc
    unfold decidePolicy at hp
    rw [if_pos (by unfold FrameMgr.needMarginalize; rw [h.len]; simpa using hc)] at hp
    split at hp
    · obtain ⟨key, _, hk⟩ := Res.bind_eq_ok.1 hp
      cases key <;> cases hk
    · cases hp
  | margNewest => exact absurd hp (C40_never_newest w)
  | margOldest =>
    obtain ⟨w', m1, m2, m3, m4, m5, m6, m7⟩ := margOldest_ok l w1 h1 ha1 h2
    exact ⟨w', m1, _, m2, m3, m4, m5, m6, m7, by simp [dropped]⟩
  | margSubnew =>
    have h3 : 3 ≤ l.msgs.length := by
      by_contra hc
      have hl : w.frm.frames.length = 2 := by rw [h.len]; omega
      obtain ⟨s, b, hfs⟩ := List.length_eq_two.1 hl
      exact C40_two_frames w ha.nodup s b hfs hp
    obtain ⟨w', m1, m2⟩ := rel_step l w1 h1 (.marg .margSubnew) h3
    have m1 : w1.marginalize .margSubnew = .ok w' := m1
    obtain ⟨k1, k2⟩ := marginalize_keep w1 w' _ m1
    have hlen : (l.msgs.eraseIdx (l.msgs.length - 2)).length = l.msgs.length - 1 := List.length_eraseIdx_of_lt (by omega)
    refine ⟨w', m1, _, m2, marginalize_addr w1 w' _ ha1 m1, k1, k2, ⟨List.eraseIdx_sublist _ _, ?_, ?_, le_rfl⟩, ?_, by simp [dropped]⟩
    · show l.base + (l.msgs.eraseIdx (l.msgs.length - 2)).length ≤ _
      omega
    · show (l.msgs.eraseIdx (l.msgs.length - 2)).getLast? = _
      rw [List.getLast?_eq_getElem?, List.getLast?_eq_getElem?, hlen, List.getElem?_eraseIdx_of_ge (by omega)]
      congr 1
      omega
    · show (l.msgs.eraseIdx (l.msgs.length - 2)).length + 1 = _
      omega

theorem suffix_getLast? {α : Type _} {a b : List α} (h : a <:+ b) (ha : a ≠ []) : a.getLast? = b.getLast? := by
  obtain ⟨t, rfl⟩ := h
  rw [List.getLast?_append]
  obtain ⟨z, hz⟩ := Option.ne_none_iff_exists'.1 (mt List.getLast?_eq_none_iff.1 ha)
  rw [hz]; rfl

theorem tryUpdate_ok (ord : Prop) (env : Env K) (g : Vec3 K) {nc N U : Nat} {l : Log K T} {b : Backend K T} (ts : T) (h : Core nc N U l b) (hne : l.msgs ≠ [])
    (hfit : Fits nc (max 1 N + 1) U) (hlen : l.msgs.length ≤ max 1 N + 1)
    (hi : b.status = .needInit → l.msgs.length ≤ 1 ∧ b.u.q.items = [])
    (hl : b.status = .initialized → 2 ≤ l.msgs.length ∧ Live ord b.u.q b.att.items (6 * (nc + l.msgs.length - 1))) :
    ∃ b' l', b.tryUpdate env g ts = .ok b' ∧ Stable ord nc N U l' b' ∧ Shrinks l l' ∧ b'.att.items = b.att.items ∧
      (b'.status = .initialized → ∃ i ∈ b'.u.q.items, TimeOps.sub ts i.ts ≤ b.loader.imuPeriod) ∧ (b'.status = .needInit → l'.msgs.length = 1) := by
  unfold tryUpdate
  cases hs : b.status with
  | needInit =>
    obtain ⟨i1, i2⟩ := hi hs
    have := List.length_pos_iff.2 hne
    exact ⟨b, l, rfl, ⟨h, by omega, fun _ => ⟨i1, i2⟩, by simp [hs]⟩, .refl l, rfl, by simp [hs], fun _ => by omega⟩
  | initialized =>
    obtain ⟨l2, lv⟩ := hl hs
    dsimp only
    rw [if_pos h.mounted]
    obtain ⟨good, u', u1, u2, u3⟩ := update_ok env b.noise b.maxUsed g b.u ts b.loader.imuPeriod l h.rel h.addr (by rw [h.ext]; exact h.obs) l2
      (by rw [h.ext]; exact lv.dims) (by rw [h.ext, h.used]; exact hfit.mono hlen)
    rw [u1, Res.bind_ok]
    cases good with
    | false =>
      obtain ⟨v1, v2⟩ := u2 rfl
      have c1 : Core nc N U l { b with u := u', status := .needInit } := h.keep _ rfl rfl (by rw [v1]; exact .refl _) (List.suffix_refl _)
      obtain ⟨w', l', s1, s2, s3, s4⟩ := shrunk_ok c1 hne
      refine ⟨_, l', s1, ⟨s2, by omega, fun _ => ⟨by omega, v2⟩, fun hc => ?_⟩, s3, rfl, fun hc => ?_, fun _ => s4⟩
      · cases hc
      · cases hc
    | true =>
      obtain ⟨v1, v2, v3, v4, v5⟩ := u3 rfl
      simp only [if_true]
      obtain ⟨w', m1, l', m2, m3, m4, m5, m6, m7, m8⟩ := policy_ok l b.u.w u'.w u'.policy h.rel (rel_keep h.rel v1) h.addr (addrOk_keep h.addr v1) l2 v2
      rw [m1, Res.bind_ok]
      have hdr : dropped u'.policy ≤ 1 := by cases u'.policy <;> simp [dropped]
      obtain ⟨old, o1, -, o3, -, -⟩ := C37_reset b.u.q ts b.loader.imuPeriod
      generalize (b.u.q.resetOrigin ts b.loader.imuPeriod).1.items = kept at v4 v5 o1 o3
      have hts : u'.q.items.map (·.ts) = kept.map (·.ts) := by
        have := congrArg (List.map (fun x : Vec3 K × Vec3 K × T => x.2.2)) v4
        simpa [List.map_map, Function.comp_def, sample] using this
      have hun : u'.q.items ≠ [] := by
        intro hc
        rw [hc] at hts
        exact v5 (List.map_eq_nil_iff.1 hts.symm)
      have hn : (b.u.w.frm.extrinsics.length + l.msgs.length) * 6 - 6 * dropped u'.policy = 6 * (nc + l'.msgs.length) := by
        rw [h.ext]; omega
      rw [hn] at v3
      have hlen' : l'.msgs.length ≤ max 1 N := by
        by_cases hd : dropped u'.policy = 0
        · have := m8 hd
          rw [h.size] at this
          omega
        · omega
      have mem_of : ∀ it ∈ u'.q.items, ∃ x ∈ kept, x.ts = it.ts := by
        intro it hit
        have : it.ts ∈ kept.map (·.ts) := by rw [← hts]; exact List.mem_map_of_mem hit
        obtain ⟨x, hx, hxt⟩ := List.mem_map.1 this
        exact ⟨x, hx, hxt⟩
      have hlive : Live ord u'.q b.att.items (6 * (nc + l'.msgs.length)) := by
        obtain ⟨a, a1, a2, a3⟩ := lv.last
        refine ⟨hun, v3, a, a1, ?_, fun ho => ?_⟩
        · intro it hit
          obtain ⟨x, hx, hxt⟩ := mem_of it hit
          rw [← hxt]
          exact a2 x (by rw [o1]; simp [hx])
        · obtain ⟨i, i1, i2⟩ := a3 ho
          have hk : kept.getLast? = some i := by rw [← i1]; exact suffix_getLast? ⟨old, o1.symm⟩ v5
          have hl2 := congrArg List.getLast? hts
          rw [List.getLast?_map, List.getLast?_map, hk] at hl2
          cases hq : u'.q.items.getLast? with
          | none => rw [hq] at hl2; cases hl2
          | some j =>
            rw [hq] at hl2
            simp only [Option.map_some, Option.some.injEq] at hl2
            exact ⟨j, rfl, hl2.trans i2⟩
      refine ⟨_, l', rfl, ⟨⟨h.mounted, ?_, ?_, h.used, m2, m3, fun m hm => h.obs m (m6.sub.subset hm), h.base.trans m6.base, h.sorted⟩, hlen', ?_, fun _ => ⟨by omega, hlive⟩⟩,
        m6, rfl, fun _ => ?_, ?_⟩
      · show w'.frm.extrinsics.length = nc
        rw [m4, v1.ext, h.ext]
      · show w'.frm.maxWindowSize = N
        rw [m5, v1.size, h.size]
      · intro hc; cases hc
      · obtain ⟨k0, ks, hks⟩ := List.exists_cons_of_ne_nil v5
        obtain ⟨i0, is, his⟩ := List.exists_cons_of_ne_nil hun
        have e0 : i0.ts = k0.ts := by
          rw [hks, his] at hts
          simp only [List.map_cons, List.cons.injEq] at hts
          exact hts.1
        refine ⟨i0, by rw [his]; simp, ?_⟩
        have := o3 k0 (by rw [hks]; rfl)
        rw [e0]
        by_contra hc
        rw [(TimeLaws.lt_iff _ _).2 (not_le.1 hc)] at this
        cases this
      · intro hc; cases hc

theorem cleanAtt_ok (ord : Prop) {nc N U : Nat} {l : Log K T} {b : Backend K T} (m : FeatMsg K T) (h : Stable ord nc N U l b) (hm : l.msgs.getLast? = some m)
    (hi : b.status = .initialized → ∃ i ∈ b.u.q.items, TimeOps.sub m.ts i.ts ≤ b.loader.imuPeriod) :
    ∃ b', b.cleanAtt = .ok b' ∧ Stable ord nc N U l b' ∧ b'.att.items <:+ b.att.items ∧ b'.att.items.getLast? = b.att.items.getLast? ∧ b'.status = b.status ∧ b'.u = b.u := by
  unfold cleanAtt
  by_cases hl : b.u.w.frm.frames.length > 1
  · rw [if_pos hl]
    have hlen := h.rel.len
    have hs : b.status = .initialized := by
      cases hs : b.status with
      | initialized => rfl
      | needInit => have := (h.idle hs).1; omega
    obtain ⟨i, i1, i2⟩ := hi hs
    obtain ⟨-, lv⟩ := h.live hs
    obtain ⟨a, a1, a2, a3⟩ := lv.last
    rcases List.eq_nil_or_concat b.u.w.frm.frames with h0 | ⟨fs, f, hf⟩
    · rw [h0] at hl; simp at hl
    rw [List.concat_eq_append] at hf
    have hfts : f.ts = m.ts := by
      have e1 : b.u.w.frm.frames[l.msgs.length - 1]? = some f := by
        rw [← hlen, ← List.getLast?_eq_getElem?, hf]; simp
      have e2 : l.msgs[l.msgs.length - 1]? = some m := by rw [← List.getLast?_eq_getElem?]; exact hm
      exact (h.rel.frames _ _ _ e1 e2).ts_eq
    rw [hf, back_append_singleton, Res.bind_ok, hfts]
    obtain ⟨att, c1, c2, c3, c4, c5⟩ := clean_ok b.att m.ts b.loader.imuPeriod a a1 (le_trans (TimeLaws.sub_le_sub_right _ _ _ (a2 i i1)) i2)
    rw [c1, Res.bind_ok]
    refine ⟨_, rfl, ⟨⟨h.mounted, h.ext, h.size, h.used, h.rel, h.addr, h.obs, h.base, h.sorted.sublist c3.sublist⟩, h.len, h.idle, fun hs => ?_⟩, c3, c4.trans a1.symm, rfl, rfl⟩
    exact ⟨(h.live hs).1, lv.ne, (h.live hs).2.dims, a, c4, a2, a3⟩
  · rw [if_neg hl]
    exact ⟨b, rfl, h, List.suffix_refl _, rfl, rfl, rfl⟩

/-- The vision part of `RunOnce` on a well-behaved message. -/
theorem onFeat_ok (ord : Prop) (env : Env K) (g : Vec3 K) {nc N U : Nat} {l : Log K T} {b : Backend K T} (m : FeatMsg K T) (h : Stable ord nc N U l b)
    (hg : GoodMsg l m) (ho : GoodObs nc m) (hb : l.base + l.msgs.length + 1 < two32) (hfit : Fits nc (max 1 N + 1) U)
    (h0 : TimeOps.tlit 0 ≤ b.loader.imuPeriod) (h1 : TimeOps.mul b.loader.imuPeriod (TimeOps.tlit (55/100)) ≤ b.loader.imuPeriod) :
    ∃ b' l', b.onFeat env g m = .ok b' ∧ Stable ord nc N U l' b' ∧ l'.msgs.Sublist (l.msgs ++ [m]) ∧ l'.base + l'.msgs.length ≤ l.base + l.msgs.length + 1 ∧
      l'.msgs.getLast? = some m ∧ b'.att.items <:+ b.att.items ∧ b'.att.items.getLast? = b.att.items.getLast? ∧ (b'.status = .needInit → l'.msgs.length = 1) := by
  obtain ⟨c1, e1, e2⟩ := core_insert h.toCore m hg ho hb
  have hne : (l.step (.insert m)).msgs ≠ [] := by rw [e1]; simp
  have hlen1 : (l.step (.insert m)).msgs.length = l.msgs.length + 1 := by rw [e1]; simp
  obtain ⟨b1, l1, t1, t2, t3, t4, t5, t6, t7⟩ := tryInit_ok ord env g c1 hne (fun hs => ⟨by have := (h.idle hs).1; omega, (h.idle hs).2⟩) h0 h1
  have hk := tryInit_keep env g _ b1 t1
  have hper : b1.loader = b.loader := hk.1
  have hlast1 : l1.msgs.getLast? = some m := by rw [t3.last, e1]; simp
  have hne1 : l1.msgs ≠ [] := by intro hc; rw [hc] at hlast1; cases hlast1
  have hlen2 : l1.msgs.length ≤ max 1 N + 1 := by
    have a1 := t3.sub.length_le
    have a2 := h.len
    omega
  obtain ⟨b2, l2, r1, r2, r3, r4, r5, r6⟩ := tryUpdate_ok ord env g m.ts t2 hne1 hfit hlen2
    (fun hs => by
      cases hs0 : b.status with
      | initialized =>
        have := (t6 hs0).1
        rw [this] at hs
        exact absurd (hs0.symm.trans hs) (by decide)
      | needInit =>
        rcases t7 hs0 with ⟨-, a2, a3⟩ | ⟨a1, -, -⟩
        · exact ⟨by omega, a3⟩
        · exact absurd (a1.symm.trans hs) (by decide))
    (fun hs => by
      cases hs0 : b.status with
      | initialized =>
        obtain ⟨a1, a2⟩ := t6 hs0
        obtain ⟨a3, a4⟩ := h.live hs0
        rw [a2, a1, hlen1]
        exact ⟨by omega, a4⟩
      | needInit =>
        rcases t7 hs0 with ⟨a1, -, -⟩ | ⟨-, a2, a3⟩
        · exact absurd (a1.symm.trans hs) (by decide)
        · rw [a2]; exact ⟨le_rfl, a3⟩)
  have hk2 := tryUpdate_keep env g b1 b2 m.ts r1
  have hlast2 : l2.msgs.getLast? = some m := r3.last.trans hlast1
  obtain ⟨b3, d1, d2, d3, d4, d5, d6⟩ := cleanAtt_ok ord m r2 hlast2 (fun hs => by rw [hk2.1]; exact r5 hs)
  refine ⟨b3, l2, ?_, d2, ?_, ?_, hlast2, ?_, ?_, fun hs => r6 (d5.symm.trans hs)⟩
  · unfold onFeat
    dsimp only
    rw [t1, Res.bind_ok, r1, Res.bind_ok, d1]
  · rw [← e1]; exact r3.sub.trans t3.sub
  · have := r3.top; have := t3.top; omega
  · rw [r4] at d3; exact d3.trans t4
  · rw [d4, r4, t5]; rfl

/-- The IMU part of `RunOnce`. -/
theorem onImu_ok (ord : Prop) (g : Vec3 K) {nc N U : Nat} {l : Log K T} {b : Backend K T} (ms : List (ImuMsg K T)) (h : Stable ord nc N U l b)
    (hord : ord → ∀ m ∈ ms, ∀ a ∈ b.att.items, a.ts ≤ m.ts) :
    ∃ r b', b.onImu g ms = .ok (r, b') ∧ Stable ord nc N U l b' ∧
      (b'.att.items = b.att.items ∨ ∃ m ms' it, ms = m :: ms' ∧ b'.att.items = b.att.items ++ [it] ∧ it.ts = m.ts ∧ ∀ a, b.att.items.getLast? = some a → a.ts ≤ m.ts) := by
  cases ms with
  | nil => exact ⟨_, _, rfl, h, .inl rfl⟩
  | cons m ms =>
    rw [onImu]
    have hp := propagate_items b.att g m.accel m.gyro m.ts
    have hacc : ∀ last, b.att.items.getLast? = some last → TimeOps.lt m.ts last.ts = false → (b.att.propagate g m.accel m.gyro m.ts).1.items ≠ b.att.items := by
      intro last hl hlt
      obtain ⟨q, hq, -⟩ := C24_accepted b.att g m.accel m.gyro m.ts last hl hlt
      rw [hq]
      intro hc
      have := congrArg List.length hc
      simp at this
    have hsort : Sorted (b.att.propagate g m.accel m.gyro m.ts).1.items :=
      (sorted_step b.att _ (.sample g m.accel m.gyro m.ts) (fun _ _ _ _ _ => (TimeLaws.le_iff _ _).2 le_rfl) h.sorted (fun _ _ => (TimeLaws.le_iff _ _).2 le_rfl) rfl).1
    generalize b.att.propagate g m.accel m.gyro m.ts = ar at hp hacc hsort
    obtain ⟨att, res⟩ := ar
    dsimp only at hp hacc hsort ⊢
    have nlt : ∀ last : AttItem K T, TimeOps.lt m.ts last.ts = false → last.ts ≤ m.ts := by
      intro last hl
      by_contra hc
      rw [(TimeLaws.lt_iff _ _).2 (not_le.1 hc)] at hl
      cases hl
    have hp' : att.items = b.att.items ∨ ∃ m' ms' it, m :: ms = m' :: ms' ∧ att.items = b.att.items ++ [it] ∧ it.ts = m'.ts ∧
        ∀ a, b.att.items.getLast? = some a → a.ts ≤ m'.ts := by
      rcases hp with hp | ⟨it, p1, p2, p3⟩
      · left; rw [hp]
      · exact .inr ⟨m, ms, it, rfl, p1, p2, fun a ha => nlt a (p3 a ha)⟩
    cases hs : b.status with
    | needInit =>
      refine ⟨_, _, rfl, ⟨⟨h.mounted, h.ext, h.size, h.used, h.rel, h.addr, h.obs, h.base, hsort⟩, h.len, fun _ => h.idle hs, fun hc => ?_⟩, hp'⟩
      cases hc
    | initialized =>
      obtain ⟨l1, lv⟩ := h.live hs
      dsimp only
      rw [if_pos h.mounted]
      refine ⟨_, _, rfl, ⟨⟨h.mounted, h.ext, h.size, h.used, h.rel, h.addr, h.obs, h.base, hsort⟩, h.len, fun hc => ?_, fun _ => ⟨l1, ?_⟩⟩, hp'⟩
      · cases hc
      · obtain ⟨a, a1, a2, a3⟩ := lv.last
        have hitems : ∃ i, (b.u.q.propagate b.u.w.frm.extrinsics.length g m.accel m.gyro m.ts).items = b.u.q.items ++ [i] ∧ i.ts = m.ts := by
          unfold PropQueue.propagate
          rcases List.eq_nil_or_concat b.u.q.items with h0 | ⟨li, z, h0⟩
          · exact absurd h0 lv.ne
          · rw [List.concat_eq_append] at h0
            simp only [h0, List.getLast?_concat]
            exact ⟨_, rfl, rfl⟩
        obtain ⟨i, hi, hit⟩ := hitems
        refine ⟨by rw [hi]; simp, ?_, ?_⟩
        · exact propagate_qdims _ _ _ g _ _ _ (.inr ⟨lv.ne, lv.dims⟩)
        · rw [hi]
          rcases hp with hp | ⟨it, p1, p2, p3⟩
          · have hlt : TimeOps.lt m.ts a.ts = true := by
              by_contra hc
              exact hacc a a1 (by simpa using hc) (by rw [hp])
            refine ⟨a, by show att.items.getLast? = _; rw [hp]; exact a1, ?_, fun ho => ?_⟩
            · intro x hx
              rcases List.mem_append.1 hx with hx | hx
              · exact a2 x hx
              · rw [List.mem_singleton.1 hx, hit]
                exact le_of_lt ((TimeLaws.lt_iff _ _).1 hlt)
            · have := hord ho m (by simp) a (List.mem_of_getLast? a1)
              exact absurd ((TimeLaws.lt_iff _ _).1 hlt) (not_lt.2 this)
          · refine ⟨it, by show att.items.getLast? = _; rw [p1]; simp, ?_, fun _ => ⟨i, by simp, by rw [hit, p2]⟩⟩
            intro x hx
            rw [p2]
            rcases List.mem_append.1 hx with hx | hx
            · exact (a2 x hx).trans (nlt a (p3 a a1))
            · rw [List.mem_singleton.1 hx, hit]

/-- `RunOnce` when the message it takes, if any, is well-behaved. -/
theorem runOnce_ok (ord : Prop) (env : Env K) (g : Vec3 K) {nc N U : Nat} {l : Log K T} {b : Backend K T} (h : Stable ord nc N U l b) (hfit : Fits nc (max 1 N + 1) U)
    (h0 : TimeOps.tlit 0 ≤ b.loader.imuPeriod) (h1 : TimeOps.mul b.loader.imuPeriod (TimeOps.tlit (55/100)) ≤ b.loader.imuPeriod)
    (hm : ∀ m, b.loader.popOne.out.featMeas = some m → GoodMsg l m ∧ GoodObs nc m ∧ l.base + l.msgs.length + 1 < two32)
    (hord : ord → ∀ m ∈ b.loader.popOne.out.imuMeas, ∀ a ∈ b.att.items, a.ts ≤ m.ts) :
    ∃ r b' l', b.runOnce env g = .ok (r, b') ∧ Stable ord nc N U l' b' ∧
      l'.msgs.Sublist (l.msgs ++ b.loader.popOne.out.featMeas.toList) ∧ l'.base + l'.msgs.length ≤ l.base + l.msgs.length + b.loader.popOne.out.featMeas.toList.length ∧
      (∀ m, b.loader.popOne.out.featMeas = some m → l'.msgs.getLast? = some m ∧ (b'.status = .needInit → l'.msgs.length = 1)) ∧
      (∀ a ∈ b'.att.items, a ∈ b.att.items ∨ ∃ m ∈ b.loader.popOne.out.imuMeas, a.ts = m.ts) ∧
      (∀ a, b.att.items.getLast? = some a → ∃ a', b'.att.items.getLast? = some a' ∧ a.ts ≤ a'.ts) := by
  have hper : b.loader.popOne.loader.imuPeriod = b.loader.imuPeriod := by
    unfold Loader.popOne
    split
    · split
      · split <;> rfl
      · rfl
    · rfl
    · rfl
    · rfl
  unfold runOnce
  dsimp only
  have hst : Stable ord nc N U l { b with loader := b.loader.popOne.loader } :=
    ⟨⟨h.mounted, h.ext, h.size, h.used, h.rel, h.addr, h.obs, h.base, h.sorted⟩, h.len, h.idle, h.live⟩
  by_cases hret : b.loader.popOne.ret = true
  · rw [if_pos hret]
    obtain ⟨r, b1, i1, i2, i3⟩ := onImu_ok ord g b.loader.popOne.out.imuMeas hst hord
    rw [i1, Res.bind_ok]
    have hk := onImu_keep g _ b1 _ r i1
    have hl1 : b1.loader = b.loader.popOne.loader := hk.1
    have mem1 : ∀ a ∈ b1.att.items, a ∈ b.att.items ∨ ∃ m ∈ b.loader.popOne.out.imuMeas, a.ts = m.ts := by
      intro a ha
      rcases i3 with i3 | ⟨m, ms', it, j1, j2, j3, -⟩
      · rw [i3] at ha; exact .inl ha
      · rw [j2] at ha
        rcases List.mem_append.1 ha with ha | ha
        · exact .inl ha
        · rw [List.mem_singleton.1 ha]
          exact .inr ⟨m, by rw [j1]; simp, j3⟩
    have last1 : ∀ a, b.att.items.getLast? = some a → ∃ a', b1.att.items.getLast? = some a' ∧ a.ts ≤ a'.ts := by
      intro a ha
      rcases i3 with i3 | ⟨m, ms', it, j1, j2, j3, j4⟩
      · exact ⟨a, by rw [i3]; exact ha, le_rfl⟩
      · exact ⟨it, by rw [j2]; simp, by rw [j3]; exact j4 a ha⟩
    dsimp only
    cases hf : b.loader.popOne.out.featMeas with
    | none => exact ⟨r, b1, l, rfl, i2, by simp, by simp, by simp, mem1, last1⟩
    | some m =>
      dsimp only
      obtain ⟨g1, g2, g3⟩ := hm m hf
      obtain ⟨b2, l2, f1, f2, f3, f4, f5, f6, f7, f8⟩ := onFeat_ok ord env g m i2 g1 g2 g3 hfit (by rw [hl1, hper]; exact h0) (by rw [hl1, hper]; exact h1)
      rw [f1, Res.bind_ok]
      refine ⟨true, b2, l2, rfl, f2, f3, f4, ?_, fun a ha => mem1 a (f6.subset ha), ?_⟩
      · intro m' hm'
        cases hm'
        exact ⟨f5, f8⟩
      · intro a ha
        rw [f7]; exact last1 a ha
  · rw [if_neg hret]
    have hf : b.loader.popOne.out.featMeas = none := by
      have := (popOne_ret b.loader).1 (by simpa using hret)
      unfold Loader.popOne
      rw [this.1, this.2]
      rfl
    refine ⟨false, _, l, rfl, hst, by simp [hf], by simp [hf], by simp [hf], fun a ha => .inl ha, fun a ha => ⟨a, ha, le_rfl⟩⟩

end Time
end Backend
end Vio
