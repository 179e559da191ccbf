/-
The invariant of a backend that is fed well-formed messages and may be `Reset` at any time: `Reset` leaves the propagation queue, the window and the attitudes as they are, so the next
initialisation finds states of a window of another size.
-/
import Verif.Props.Restart

set_option linter.unusedSectionVars false

namespace Vio
open Spec WinSpec AttSpec Update

variable {K T : Type} [Add K] [Sub K] [Mul K] [Neg K] [Div K] [Zero K] [One K] [ScalarFn K]
  [TimeOps T] [TimeCast T K]

namespace Backend

section Time
variable [LinearOrder T] [TimeLaws T] [CastLaws T K]

/-- An update whose states have a covariance of the wrong size is defined. -/
theorem update_wrong_ok (env : Env K) (noise : K) (maxUsed : Nat) (g : Vec3 K) (u : Upd K T) (ts thr : T) (ha : AddrOk u.w.frm) (h2 : 2 ≤ u.w.frm.frames.length) (c : Nat)
    (hc : ∀ i ∈ u.q.items, i.imuEx.cols = c) (hne : c ≠ mul32 (sub32 (u.w.frm.extrinsics.length + u.w.frm.frames.length) 1) 6) :
    ∃ u', update env noise maxUsed g u ts thr = .ok (false, u') := by
  obtain ⟨old, o1, -, -, o4, -⟩ := C37_reset u.q ts thr
  unfold update
  generalize u.q.resetOrigin ts thr = sf at o1 o4 ⊢
  obtain ⟨s, found⟩ := sf
  dsimp only at o1 o4 ⊢
  cases found with
  | false => exact ⟨_, rfl⟩
  | true =>
    have hi : s.items ≠ [] := o4.1 rfl
    simp only [Bool.not_true, Bool.false_eq_true, if_false]
    obtain ⟨policy, hp⟩ := Res.exists_of_isOk (C40_defined u.w ha.nodup (.inl (by omega)))
    rw [hp, Res.bind_ok]
    obtain ⟨i0, rest, hit⟩ := List.exists_cons_of_ne_nil hi
    have hcol : i0.imuEx.cols = c := hc i0 (by rw [o1, hit]; simp)
    have hcc : ∃ cov, constructCov s u.w.frm = .ok (false, cov) := by
      unfold constructCov
      rw [hit, front_cons, Res.bind_ok]
      dsimp only
      rw [if_pos (by rw [hcol]; exact hne)]
      exact ⟨_, rfl⟩
    obtain ⟨cov, hcc⟩ := hcc
    rw [hcc, Res.bind_ok]
    exact ⟨_, rfl⟩

/-- Between two calls, `Reset` allowed.  A queue that is not empty has entries of one size, whichever. -/
structure Loose (nc N U : Nat) (l : Log K T) (b : Backend K T) : Prop extends Core nc N U l b where
  len : l.msgs.length ≤ max 1 N
  queue : b.u.q.items ≠ [] → ∃ c, Live False b.u.q b.att.items c
  live : b.status = .initialized → 1 ≤ l.msgs.length ∧ Live False b.u.q b.att.items (6 * (nc + l.msgs.length))

theorem Stable.loose {nc N U : Nat} {l : Log K T} {b : Backend K T} (h : Stable False nc N U l b) : Loose nc N U l b := by
  refine ⟨h.toCore, h.len, fun hq => ?_, h.live⟩
  cases hs : b.status with
  | needInit => exact absurd (h.idle hs).2 hq
  | initialized => exact ⟨_, (h.live hs).2⟩

theorem Loose.reset {nc N U : Nat} {l : Log K T} {b : Backend K T} (h : Loose nc N U l b) : Loose nc N U l b.reset :=
  ⟨⟨h.mounted, h.ext, h.size, h.used, h.rel, h.addr, h.obs, h.base, h.sorted⟩, h.len, h.queue, fun hs => by cases hs⟩

theorem tryInit_loose (env : Env K) (g : Vec3 K) {nc N U : Nat} {l : Log K T} {b : Backend K T} (h : Core nc N U l b) (hne : l.msgs ≠ [])
    (hq : b.u.q.items ≠ [] → ∃ c, Live False b.u.q b.att.items c)
    (h0 : TimeOps.tlit 0 ≤ b.loader.imuPeriod) (h1 : TimeOps.mul b.loader.imuPeriod (TimeOps.tlit (55/100)) ≤ b.loader.imuPeriod) :
    ∃ b' l', b.tryInit env g = .ok b' ∧ Core nc N U l' b' ∧ Shrinks l l' ∧ b'.att.items <:+ b.att.items ∧ b'.att.items.getLast? = b.att.items.getLast? ∧
      (b.status = .initialized → b' = b ∧ l' = l) ∧
      (b.status = .needInit → (b'.status = .needInit ∧ l'.msgs.length = 1 ∧ b'.u.q = b.u.q) ∨
        (b'.status = .initialized ∧ 2 ≤ l'.msgs.length ∧ ∃ c, Live False b'.u.q b'.att.items c)) := by
  unfold tryInit
  cases hs : b.status with
  | initialized => exact ⟨b, l, rfl, h, .refl l, List.suffix_refl _, rfl, fun _ => ⟨rfl, rfl⟩, by simp⟩
  | needInit =>
    dsimp only
    have key : ∃ n good b', initialise env g b = .ok (good, b') ∧ KeepWin b.u.w b'.u.w ∧ b'.att.items <:+ b.att.items ∧ b'.att.items.getLast? = b.att.items.getLast? ∧
        (good = false → b'.u.q = b.u.q) ∧ (good = true → 2 ≤ l.msgs.length ∧ Live False b'.u.q b'.att.items n) := by
      by_cases hi : b.u.q.items = []
      · exact ⟨_, initialise_gen env g b l False _ h.mounted h.rel (by rw [h.ext]; exact h.obs) h.sorted (.inl ⟨hi, rfl⟩) (by rw [hi]; simp) h0 h1⟩
      · obtain ⟨c, lv⟩ := hq hi
        refine ⟨_, initialise_gen env g b l False c h.mounted h.rel (by rw [h.ext]; exact h.obs) h.sorted (.inr ⟨hi, lv.dims⟩) ?_ h0 h1⟩
        intro a ha
        obtain ⟨z, z1, z2, -⟩ := lv.last
        rw [ha] at z1
        cases z1
        exact z2
    obtain ⟨n, good, b1, i1, i2, i3, i4, i5, i6⟩ := key
    obtain ⟨att, q, w, hb1, -⟩ := initialise_keep env g b b1 good i1
    have c1 : Core nc N U l b1 := h.keep b1 (by rw [hb1]) (by rw [hb1]) i2 i3
    have hs1 : b1.status = .needInit := by rw [hb1]; exact hs
    rw [i1, Res.bind_ok]
    cases good with
    | true =>
      obtain ⟨j1, j2⟩ := i6 rfl
      refine ⟨_, l, rfl, ⟨c1.mounted, c1.ext, c1.size, c1.used, c1.rel, c1.addr, c1.obs, c1.base, c1.sorted⟩, .refl l, i3, i4, by simp, fun _ => .inr ⟨rfl, j1, n, j2⟩⟩
    | false =>
      obtain ⟨w', l', s1, s2, s3, s4⟩ := shrunk_ok c1 hne
      refine ⟨b1.setWin w', l', s1, s2, s3, i3, i4, by simp, fun _ => .inl ⟨hs1, s4, i5 rfl⟩⟩

theorem tryUpdate_loose (env : Env K) (g : Vec3 K) {nc N U : Nat} {l : Log K T} {b : Backend K T} (ts : T) (h : Core nc N U l b) (hne : l.msgs ≠ [])
    (hfit : Fits nc (max 1 N + 1) U) (hlen : l.msgs.length ≤ max 1 N + 1)
    (hi : b.status = .needInit → l.msgs.length ≤ 1 ∧ (b.u.q.items ≠ [] → ∃ c, Live False b.u.q b.att.items c))
    (hl : b.status = .initialized → 2 ≤ l.msgs.length ∧ ∃ c, Live False b.u.q b.att.items c) :
    ∃ b' l', b.tryUpdate env g ts = .ok b' ∧ Loose nc N U l' b' ∧ Shrinks l l' ∧ b'.att.items = b.att.items ∧
      (b'.status = .initialized → ∃ i ∈ b'.u.q.items, TimeOps.sub ts i.ts ≤ b.loader.imuPeriod) ∧ (b'.status = .needInit → l'.msgs.length = 1) := by
  unfold tryUpdate
  cases hs : b.status with
  | needInit =>
    obtain ⟨i1, i2⟩ := hi hs
    have := List.length_pos_iff.2 hne
    exact ⟨b, l, rfl, ⟨h, by omega, i2, by simp [hs]⟩, .refl l, rfl, by simp [hs], fun _ => by omega⟩
  | initialized =>
    obtain ⟨l2, c, lv⟩ := hl hs
    dsimp only
    rw [if_pos h.mounted]
    have fail : ∀ u' : Upd K T, u'.w = b.u.w → (u'.q.items ≠ [] → ∃ c, Live False u'.q b.att.items c) →
        ∃ b' l', shrunk { b with u := u', status := .needInit } = .ok b' ∧ Loose nc N U l' b' ∧ Shrinks l l' ∧ b'.att.items = b.att.items ∧
          (b'.status = .initialized → ∃ i ∈ b'.u.q.items, TimeOps.sub ts i.ts ≤ b.loader.imuPeriod) ∧ (b'.status = .needInit → l'.msgs.length = 1) := by
      intro u' v1 v2
      have c1 : Core nc N U l { b with u := u', status := .needInit } := h.keep _ rfl rfl (by rw [v1]; exact .refl _) (List.suffix_refl _)
      obtain ⟨w', l', s1, s2, s3, s4⟩ := shrunk_ok c1 hne
      refine ⟨_, l', s1, ⟨s2, by omega, v2, fun hc => ?_⟩, s3, rfl, fun hc => ?_, fun _ => s4⟩
      · cases hc
      · cases hc
    by_cases hsz : c = 6 * (nc + l.msgs.length - 1)
    swap
    · have hcols : ∀ i ∈ b.u.q.items, i.imuEx.cols = c := fun i hi => lv.dims.ex.items i hi
      have hcf := (hfit.mono hlen).cols
      have hsz' : c ≠ mul32 (sub32 (b.u.w.frm.extrinsics.length + b.u.w.frm.frames.length) 1) 6 := by
        rw [h.ext, h.rel.len, sub32_of_le (by omega) (by omega), mul32, Nat.mod_eq_of_lt (by omega)]
        omega
      obtain ⟨u', u1⟩ := update_wrong_ok env b.noise b.maxUsed g b.u ts b.loader.imuPeriod h.addr (by rw [h.rel.len]; omega) c hcols hsz'
      obtain ⟨-, v1, v2⟩ := update_wrong_size env b.noise b.maxUsed g b.u u' ts b.loader.imuPeriod false c u1 hcols hsz'
      rw [u1, Res.bind_ok]
      refine fail u' v1 fun hq => ⟨c, hq, ?_, ?_⟩
      · obtain ⟨old, o1, -, -, -, o5⟩ := C37_reset b.u.q ts b.loader.imuPeriod
        rw [v2]
        have hsub : ∀ it ∈ (b.u.q.resetOrigin ts b.loader.imuPeriod).1.items, it ∈ b.u.q.items := by intro it hit; rw [o1]; simp [hit]
        refine ⟨⟨fun it hit => lv.dims.ex.items it (hsub it hit), ?_, ?_⟩, fun it hit => lv.dims.cov it (hsub it hit), fun it hit => lv.dims.rows it (hsub it hit), ?_⟩
        · rw [o5]; exact lv.dims.ex.rows
        · rw [o5]; exact lv.dims.ex.cols
        · rw [o5]; exact lv.dims.F
      · obtain ⟨old, o1, -⟩ := C37_reset b.u.q ts b.loader.imuPeriod
        obtain ⟨a, a1, a2, -⟩ := lv.last
        refine ⟨a, a1, fun it hit => a2 it ?_, fun ho => ho.elim⟩
        rw [v2] at hit
        rw [o1]; simp [hit]
    subst hsz
    obtain ⟨good, u', u1, u2, u3⟩ := update_ok env b.noise b.maxUsed g b.u ts b.loader.imuPeriod l h.rel h.addr (by rw [h.ext]; exact h.obs) l2
      (by rw [h.ext]; exact lv.dims) (by rw [h.ext, h.used]; exact hfit.mono hlen)
    rw [u1, Res.bind_ok]
    cases good with
    | false =>
      obtain ⟨v1, v2⟩ := u2 rfl
      exact fail u' v1 fun hq => absurd v2 hq
    | true =>
      obtain ⟨v1, v2, v3, v4, v5⟩ := u3 rfl
      simp only [if_true]
      obtain ⟨w', m1, l', m2, m3, m4, m5, m6, m7, m8⟩ := policy_ok l b.u.w u'.w u'.policy h.rel (rel_keep h.rel v1) h.addr (addrOk_keep h.addr v1) l2 v2
      rw [m1, Res.bind_ok]
      have hdr : dropped u'.policy ≤ 1 := by cases u'.policy <;> simp [dropped]
      obtain ⟨old, o1, -, o3, -, -⟩ := C37_reset b.u.q ts b.loader.imuPeriod
      generalize (b.u.q.resetOrigin ts b.loader.imuPeriod).1.items = kept at v4 v5 o1 o3
      have hts : u'.q.items.map (·.ts) = kept.map (·.ts) := by
        have := congrArg (List.map (fun x : Vec3 K × Vec3 K × T => x.2.2)) v4
        simpa [List.map_map, Function.comp_def, sample] using this
      have hun : u'.q.items ≠ [] := by
        intro hc
        rw [hc] at hts
        exact v5 (List.map_eq_nil_iff.1 hts.symm)
      have hn : (b.u.w.frm.extrinsics.length + l.msgs.length) * 6 - 6 * dropped u'.policy = 6 * (nc + l'.msgs.length) := by
        rw [h.ext]; omega
      rw [hn] at v3
      have hlen' : l'.msgs.length ≤ max 1 N := by
        by_cases hd : dropped u'.policy = 0
        · have := m8 hd
          rw [h.size] at this
          omega
        · omega
      have mem_of : ∀ it ∈ u'.q.items, ∃ x ∈ kept, x.ts = it.ts := by
        intro it hit
        have : it.ts ∈ kept.map (·.ts) := by rw [← hts]; exact List.mem_map_of_mem hit
        obtain ⟨x, hx, hxt⟩ := List.mem_map.1 this
        exact ⟨x, hx, hxt⟩
      have hlive : Live False u'.q b.att.items (6 * (nc + l'.msgs.length)) := by
        obtain ⟨a, a1, a2, a3⟩ := lv.last
        refine ⟨hun, v3, a, a1, ?_, fun ho => ?_⟩
        · intro it hit
          obtain ⟨x, hx, hxt⟩ := mem_of it hit
          rw [← hxt]
          exact a2 x (by rw [o1]; simp [hx])
        · obtain ⟨i, i1, i2⟩ := a3 ho
          have hk : kept.getLast? = some i := by rw [← i1]; exact suffix_getLast? ⟨old, o1.symm⟩ v5
          have hl2 := congrArg List.getLast? hts
          rw [List.getLast?_map, List.getLast?_map, hk] at hl2
          cases hq : u'.q.items.getLast? with
          | none => rw [hq] at hl2; cases hl2
          | some j =>
            rw [hq] at hl2
            simp only [Option.map_some, Option.some.injEq] at hl2
            exact ⟨j, rfl, hl2.trans i2⟩
      refine ⟨_, l', rfl, ⟨⟨h.mounted, ?_, ?_, h.used, m2, m3, fun m hm => h.obs m (m6.sub.subset hm), h.base.trans m6.base, h.sorted⟩, hlen', fun _ => ⟨_, hlive⟩, fun _ => ⟨by omega, hlive⟩⟩,
        m6, rfl, fun _ => ?_, ?_⟩
      · show w'.frm.extrinsics.length = nc
        rw [m4, v1.ext, h.ext]
      · show w'.frm.maxWindowSize = N
        rw [m5, v1.size, h.size]
      · obtain ⟨k0, ks, hks⟩ := List.exists_cons_of_ne_nil v5
        obtain ⟨i0, is, his⟩ := List.exists_cons_of_ne_nil hun
        have e0 : i0.ts = k0.ts := by
          rw [hks, his] at hts
          simp only [List.map_cons, List.cons.injEq] at hts
          exact hts.1
        refine ⟨i0, by rw [his]; simp, ?_⟩
        have := o3 k0 (by rw [hks]; rfl)
        rw [e0]
        by_contra hc
        rw [(TimeLaws.lt_iff _ _).2 (not_le.1 hc)] at this
        cases this
      · intro hc; cases hc

theorem cleanAtt_loose {nc N U : Nat} {l : Log K T} {b : Backend K T} (m : FeatMsg K T) (h : Loose nc N U l b) (hm : l.msgs.getLast? = some m) (hn : b.status = .needInit → l.msgs.length ≤ 1)
    (hi : b.status = .initialized → ∃ i ∈ b.u.q.items, TimeOps.sub m.ts i.ts ≤ b.loader.imuPeriod) :
    ∃ b', b.cleanAtt = .ok b' ∧ Loose nc N U l b' ∧ b'.att.items <:+ b.att.items ∧ b'.att.items.getLast? = b.att.items.getLast? ∧ b'.status = b.status ∧ b'.u = b.u := by
  unfold cleanAtt
  by_cases hl : b.u.w.frm.frames.length > 1
  · rw [if_pos hl]
    have hlen := h.rel.len
    have hs : b.status = .initialized := by
      cases hs : b.status with
      | initialized => rfl
      | needInit => have := hn hs; omega
    obtain ⟨i, i1, i2⟩ := hi hs
    obtain ⟨-, lv⟩ := h.live hs
    obtain ⟨a, a1, a2, a3⟩ := lv.last
    rcases List.eq_nil_or_concat b.u.w.frm.frames with h0 | ⟨fs, f, hf⟩
    · rw [h0] at hl; simp at hl
    rw [List.concat_eq_append] at hf
    have hfts : f.ts = m.ts := by
      have e1 : b.u.w.frm.frames[l.msgs.length - 1]? = some f := by
        rw [← hlen, ← List.getLast?_eq_getElem?, hf]; simp
      have e2 : l.msgs[l.msgs.length - 1]? = some m := by rw [← List.getLast?_eq_getElem?]; exact hm
      exact (h.rel.frames _ _ _ e1 e2).ts_eq
    rw [hf, back_append_singleton, Res.bind_ok, hfts]
    obtain ⟨att, c1, c2, c3, c4, c5⟩ := clean_ok b.att m.ts b.loader.imuPeriod a a1 (le_trans (TimeLaws.sub_le_sub_right _ _ _ (a2 i i1)) i2)
    rw [c1, Res.bind_ok]
    refine ⟨_, rfl, ⟨⟨h.mounted, h.ext, h.size, h.used, h.rel, h.addr, h.obs, h.base, h.sorted.sublist c3.sublist⟩, h.len, fun hq => ?_, fun hs => ?_⟩, c3, c4.trans a1.symm, rfl, rfl⟩
    · exact ⟨_, lv.ne, lv.dims, a, c4, a2, a3⟩
    · exact ⟨(h.live hs).1, lv.ne, (h.live hs).2.dims, a, c4, a2, a3⟩
  · rw [if_neg hl]
    exact ⟨b, rfl, h, List.suffix_refl _, rfl, rfl, rfl⟩

/-- The vision part of `RunOnce` on a well-behaved message. -/
theorem onFeat_loose (env : Env K) (g : Vec3 K) {nc N U : Nat} {l : Log K T} {b : Backend K T} (m : FeatMsg K T) (h : Loose nc N U l b)
    (hg : GoodMsg l m) (ho : GoodObs nc m) (hb : l.base + l.msgs.length + 1 < two32) (hfit : Fits nc (max 1 N + 1) U)
    (h0 : TimeOps.tlit 0 ≤ b.loader.imuPeriod) (h1 : TimeOps.mul b.loader.imuPeriod (TimeOps.tlit (55/100)) ≤ b.loader.imuPeriod) :
    ∃ b' l', b.onFeat env g m = .ok b' ∧ Loose nc N U l' b' ∧ l'.msgs.Sublist (l.msgs ++ [m]) ∧ l'.base + l'.msgs.length ≤ l.base + l.msgs.length + 1 ∧
      l'.msgs.getLast? = some m ∧ b'.att.items <:+ b.att.items ∧ b'.att.items.getLast? = b.att.items.getLast? ∧ (b'.status = .needInit → l'.msgs.length = 1) := by
  obtain ⟨c1, e1, e2⟩ := core_insert h.toCore m hg ho hb
  have hne : (l.step (.insert m)).msgs ≠ [] := by rw [e1]; simp
  have hlen1 : (l.step (.insert m)).msgs.length = l.msgs.length + 1 := by rw [e1]; simp
  obtain ⟨b1, l1, t1, t2, t3, t4, t5, t6, t7⟩ := tryInit_loose env g c1 hne h.queue h0 h1
  have hk := tryInit_keep env g _ b1 t1
  have hper : b1.loader = b.loader := hk.1
  have hlast1 : l1.msgs.getLast? = some m := by rw [t3.last, e1]; simp
  have hne1 : l1.msgs ≠ [] := by intro hc; rw [hc] at hlast1; cases hlast1
  have hlen2 : l1.msgs.length ≤ max 1 N + 1 := by
    have a1 := t3.sub.length_le
    have a2 := h.len
    omega
  obtain ⟨b2, l2, r1, r2, r3, r4, r5, r6⟩ := tryUpdate_loose env g m.ts t2 hne1 hfit hlen2
    (fun hs => by
      cases hs0 : b.status with
      | initialized =>
        have := (t6 hs0).1
        rw [this] at hs
        exact absurd (hs0.symm.trans hs) (by decide)
      | needInit =>
        rcases t7 hs0 with ⟨-, a2, a3⟩ | ⟨a1, -, -⟩
        · refine ⟨by omega, fun hq => ?_⟩
          rw [a3] at hq ⊢
          obtain ⟨c, lv⟩ := h.queue hq
          refine ⟨c, lv.ne, lv.dims, ?_⟩
          rw [t5]; exact lv.last
        · exact absurd (a1.symm.trans hs) (by decide))
    (fun hs => by
      cases hs0 : b.status with
      | initialized =>
        obtain ⟨a1, a2⟩ := t6 hs0
        obtain ⟨a3, a4⟩ := h.live hs0
        rw [a2, a1, hlen1]
        exact ⟨by omega, _, a4⟩
      | needInit =>
        rcases t7 hs0 with ⟨a1, -, -⟩ | ⟨-, a2, a3⟩
        · exact absurd (a1.symm.trans hs) (by decide)
        · exact ⟨a2, a3⟩)
  have hk2 := tryUpdate_keep env g b1 b2 m.ts r1
  have hlast2 : l2.msgs.getLast? = some m := r3.last.trans hlast1
  obtain ⟨b3, d1, d2, d3, d4, d5, d6⟩ := cleanAtt_loose m r2 hlast2 (fun hs => le_of_eq (r6 hs)) (fun hs => by rw [hk2.1]; exact r5 hs)
  refine ⟨b3, l2, ?_, d2, ?_, ?_, hlast2, ?_, ?_, fun hs => r6 (d5.symm.trans hs)⟩
  · unfold onFeat
    dsimp only
    rw [t1, Res.bind_ok, r1, Res.bind_ok, d1]
  · rw [← e1]; exact r3.sub.trans t3.sub
  · have := r3.top; have := t3.top; omega
  · rw [r4] at d3; exact d3.trans t4
  · rw [d4, r4, t5]; rfl

/-- The IMU part of `RunOnce`. -/
theorem onImu_loose (g : Vec3 K) {nc N U : Nat} {l : Log K T} {b : Backend K T} (ms : List (ImuMsg K T)) (h : Loose nc N U l b) :
    ∃ r b', b.onImu g ms = .ok (r, b') ∧ Loose nc N U l b' ∧
      (b'.att.items = b.att.items ∨ ∃ m ms' it, ms = m :: ms' ∧ b'.att.items = b.att.items ++ [it] ∧ it.ts = m.ts ∧ ∀ a, b.att.items.getLast? = some a → a.ts ≤ m.ts) := by
  cases ms with
  | nil => exact ⟨_, _, rfl, h, .inl rfl⟩
  | cons m ms =>
    rw [onImu]
    have hp := propagate_items b.att g m.accel m.gyro m.ts
    have hacc : ∀ last, b.att.items.getLast? = some last → TimeOps.lt m.ts last.ts = false → (b.att.propagate g m.accel m.gyro m.ts).1.items ≠ b.att.items := by
      intro last hl hlt
      obtain ⟨q, hq, -⟩ := C24_accepted b.att g m.accel m.gyro m.ts last hl hlt
      rw [hq]
      intro hc
      have := congrArg List.length hc
      simp at this
    have hsort : Sorted (b.att.propagate g m.accel m.gyro m.ts).1.items :=
      (sorted_step b.att _ (.sample g m.accel m.gyro m.ts) (fun _ _ _ _ _ => (TimeLaws.le_iff _ _).2 le_rfl) h.sorted (fun _ _ => (TimeLaws.le_iff _ _).2 le_rfl) rfl).1
    generalize b.att.propagate g m.accel m.gyro m.ts = ar at hp hacc hsort
    obtain ⟨att, res⟩ := ar
    dsimp only at hp hacc hsort ⊢
    have nlt : ∀ last : AttItem K T, TimeOps.lt m.ts last.ts = false → last.ts ≤ m.ts := by
      intro last hl
      by_contra hc
      rw [(TimeLaws.lt_iff _ _).2 (not_le.1 hc)] at hl
      cases hl
    have hp' : att.items = b.att.items ∨ ∃ m' ms' it, m :: ms = m' :: ms' ∧ att.items = b.att.items ++ [it] ∧ it.ts = m'.ts ∧
        ∀ a, b.att.items.getLast? = some a → a.ts ≤ m'.ts := by
      rcases hp with hp | ⟨it, p1, p2, p3⟩
      · left; rw [hp]
      · exact .inr ⟨m, ms, it, rfl, p1, p2, fun a ha => nlt a (p3 a ha)⟩
    have grow : ∀ a, b.att.items.getLast? = some a → ∃ a', att.items.getLast? = some a' ∧ a.ts ≤ a'.ts ∧ m.ts ≤ a'.ts := by
      intro a ha
      rcases hp with hp | ⟨it, p1, p2, p3⟩
      · have hlt : TimeOps.lt m.ts a.ts = true := by
          by_contra hc
          exact hacc a ha (by simpa using hc) (by rw [hp])
        exact ⟨a, by rw [hp]; exact ha, le_rfl, le_of_lt ((TimeLaws.lt_iff _ _).1 hlt)⟩
      · exact ⟨it, by rw [p1]; simp, by rw [p2]; exact nlt a (p3 a ha), by rw [p2]⟩
    have old : ∀ c, Live False b.u.q b.att.items c → Live False b.u.q att.items c := by
      intro c lv
      obtain ⟨a, a1, a2, -⟩ := lv.last
      obtain ⟨a', g1, g2, -⟩ := grow a a1
      exact ⟨lv.ne, lv.dims, a', g1, fun it hit => (a2 it hit).trans g2, fun ho => ho.elim⟩
    cases hs : b.status with
    | needInit =>
      refine ⟨_, _, rfl, ⟨⟨h.mounted, h.ext, h.size, h.used, h.rel, h.addr, h.obs, h.base, hsort⟩, h.len, fun hq => ?_, fun hc => ?_⟩, hp'⟩
      · obtain ⟨c, lv⟩ := h.queue hq
        exact ⟨c, old c lv⟩
      · cases hc
    | initialized =>
      obtain ⟨l1, lv⟩ := h.live hs
      dsimp only
      rw [if_pos h.mounted]
      have new : Live False (b.u.q.propagate b.u.w.frm.extrinsics.length g m.accel m.gyro m.ts) att.items (6 * (nc + l.msgs.length)) := by
        obtain ⟨a, a1, a2, -⟩ := lv.last
        obtain ⟨a', g1, g2, g3⟩ := grow a a1
        have hitems : ∃ i, (b.u.q.propagate b.u.w.frm.extrinsics.length g m.accel m.gyro m.ts).items = b.u.q.items ++ [i] ∧ i.ts = m.ts := by
          unfold PropQueue.propagate
          rcases List.eq_nil_or_concat b.u.q.items with h0 | ⟨li, z, h0⟩
          · exact absurd h0 lv.ne
          · rw [List.concat_eq_append] at h0
            simp only [h0, List.getLast?_concat]
            exact ⟨_, rfl, rfl⟩
        obtain ⟨i, hi, hit⟩ := hitems
        refine ⟨by rw [hi]; simp, propagate_qdims _ _ _ g _ _ _ (.inr ⟨lv.ne, lv.dims⟩), a', g1, ?_, fun ho => ho.elim⟩
        rw [hi]
        intro x hx
        rcases List.mem_append.1 hx with hx | hx
        · exact (a2 x hx).trans g2
        · rw [List.mem_singleton.1 hx, hit]; exact g3
      exact ⟨_, _, rfl, ⟨⟨h.mounted, h.ext, h.size, h.used, h.rel, h.addr, h.obs, h.base, hsort⟩, h.len, fun _ => ⟨_, new⟩, fun _ => ⟨l1, new⟩⟩, hp'⟩

/-- `RunOnce` when the message it takes, if any, is well-behaved. -/
theorem runOnce_loose (env : Env K) (g : Vec3 K) {nc N U : Nat} {l : Log K T} {b : Backend K T} (h : Loose nc N U l b) (hfit : Fits nc (max 1 N + 1) U)
    (h0 : TimeOps.tlit 0 ≤ b.loader.imuPeriod) (h1 : TimeOps.mul b.loader.imuPeriod (TimeOps.tlit (55/100)) ≤ b.loader.imuPeriod)
    (hm : ∀ m, b.loader.popOne.out.featMeas = some m → GoodMsg l m ∧ GoodObs nc m ∧ l.base + l.msgs.length + 1 < two32) :
    ∃ r b' l', b.runOnce env g = .ok (r, b') ∧ Loose nc N U l' b' ∧
      l'.msgs.Sublist (l.msgs ++ b.loader.popOne.out.featMeas.toList) ∧ l'.base + l'.msgs.length ≤ l.base + l.msgs.length + b.loader.popOne.out.featMeas.toList.length ∧
      (∀ m, b.loader.popOne.out.featMeas = some m → l'.msgs.getLast? = some m ∧ (b'.status = .needInit → l'.msgs.length = 1)) ∧
      (∀ a ∈ b'.att.items, a ∈ b.att.items ∨ ∃ m ∈ b.loader.popOne.out.imuMeas, a.ts = m.ts) ∧
      (∀ a, b.att.items.getLast? = some a → ∃ a', b'.att.items.getLast? = some a' ∧ a.ts ≤ a'.ts) := by
  have hper : b.loader.popOne.loader.imuPeriod = b.loader.imuPeriod := by
    unfold Loader.popOne
    split
    · split
      · split <;> rfl
      · rfl
    · rfl
    · rfl
    · rfl
  unfold runOnce
  dsimp only
  have hst : Loose nc N U l { b with loader := b.loader.popOne.loader } :=
    ⟨⟨h.mounted, h.ext, h.size, h.used, h.rel, h.addr, h.obs, h.base, h.sorted⟩, h.len, h.queue, h.live⟩
  by_cases hret : b.loader.popOne.ret = true
  · rw [if_pos hret]
    obtain ⟨r, b1, i1, i2, i3⟩ := onImu_loose g b.loader.popOne.out.imuMeas hst
    rw [i1, Res.bind_ok]
    have hk := onImu_keep g _ b1 _ r i1
    have hl1 : b1.loader = b.loader.popOne.loader := hk.1
    have mem1 : ∀ a ∈ b1.att.items, a ∈ b.att.items ∨ ∃ m ∈ b.loader.popOne.out.imuMeas, a.ts = m.ts := by
      intro a ha
      rcases i3 with i3 | ⟨m, ms', it, j1, j2, j3, -⟩
      · rw [i3] at ha; exact .inl ha
      · rw [j2] at ha
        rcases List.mem_append.1 ha with ha | ha
        · exact .inl ha
        · rw [List.mem_singleton.1 ha]
          exact .inr ⟨m, by rw [j1]; simp, j3⟩
    have last1 : ∀ a, b.att.items.getLast? = some a → ∃ a', b1.att.items.getLast? = some a' ∧ a.ts ≤ a'.ts := by
      intro a ha
      rcases i3 with i3 | ⟨m, ms', it, j1, j2, j3, j4⟩
      · exact ⟨a, by rw [i3]; exact ha, le_rfl⟩
      · exact ⟨it, by rw [j2]; simp, by rw [j3]; exact j4 a ha⟩
    dsimp only
    cases hf : b.loader.popOne.out.featMeas with
    | none => exact ⟨r, b1, l, rfl, i2, by simp, by simp, by simp, mem1, last1⟩
    | some m =>
      dsimp only
      obtain ⟨g1, g2, g3⟩ := hm m hf
      obtain ⟨b2, l2, f1, f2, f3, f4, f5, f6, f7, f8⟩ := onFeat_loose env g m i2 g1 g2 g3 hfit (by rw [hl1, hper]; exact h0) (by rw [hl1, hper]; exact h1)
      rw [f1, Res.bind_ok]
      refine ⟨true, b2, l2, rfl, f2, f3, f4, ?_, fun a ha => mem1 a (f6.subset ha), ?_⟩
      · intro m' hm'
        cases hm'
        exact ⟨f5, f8⟩
      · intro a ha
        rw [f7]; exact last1 a ha
  · rw [if_neg hret]
    have hf : b.loader.popOne.out.featMeas = none := by
      have := (popOne_ret b.loader).1 (by simpa using hret)
      unfold Loader.popOne
      rw [this.1, this.2]
      rfl
    refine ⟨false, _, l, rfl, hst, by simp [hf], by simp [hf], by simp [hf], fun a ha => .inl ha, fun a ha => ⟨a, ha, le_rfl⟩⟩

end Time
end Backend
end Vio
