/-
C119: a running filter falls back to initialisation only when IMU data are missing.
-/
import Verif.Props.Restart

set_option linter.unusedSectionVars false

namespace Vio
open Spec WinSpec AttSpec Update

variable {K T : Type} [Add K] [Sub K] [Mul K] [Neg K] [Div K] [Zero K] [One K] [ScalarFn K]
  [TimeOps T] [TimeCast T K]

namespace Backend

/-- A running filter turns each IMU sample into one more queued state. -/
theorem onImu_states (g : Vec3 K) (b b' : Backend K T) (m : ImuMsg K T) (ms : List (ImuMsg K T)) (r : Bool) (h : b.onImu g (m :: ms) = .ok (r, b')) (hs : b.status = .initialized)
    (hne : b.u.q.items ≠ []) : times b'.u.q.items = times b.u.q.items ++ [m.ts] := by
  rw [onImu] at h
  generalize b.att.propagate g m.accel m.gyro m.ts = ar at h
  obtain ⟨att, res⟩ := ar
  dsimp only at h
  rw [hs] at h
  dsimp only at h
  split at h
  · cases h
    obtain ⟨z, hz⟩ := Option.ne_none_iff_exists'.1 (mt List.getLast?_eq_none_iff.1 hne)
    dsimp only
    unfold PropQueue.propagate
    simp only [hz, times, List.map_append, List.map_cons, List.map_nil]
    rfl
  · cases h

/-- `PopOneMessage` hands over at most one IMU sample. -/
theorem popOne_short (l : Loader K T) : l.popOne.out.imuMeas = [] ∨ ∃ s, l.popOne.out.imuMeas = [s] := by
  unfold Loader.popOne
  split
  · split
    · split
      · exact .inr ⟨_, rfl⟩
      · exact .inl rfl
    · exact .inr ⟨_, rfl⟩
  · exact .inr ⟨_, rfl⟩
  · exact .inl rfl
  · exact .inl rfl

/-- The newest attitude after an image is the newest one before it. -/
theorem onFeat_last (env : Env K) (g : Vec3 K) (b b' : Backend K T) (m : FeatMsg K T) (h : b.onFeat env g m = .ok b') (hlt : b.u.w.frm.frames.length + 1 < two32) :
    b'.att.items.getLast? = b.att.items.getLast? := by
  obtain ⟨b1, b2, h1, h2, h3⟩ := onFeat_eq env g b b' m h
  have i1 : (b.setWin (b.u.w.insert m)).u.w.frm.frames.length = b.u.w.frm.frames.length + 1 := (insert_length b.u.w m).1
  obtain ⟨t1, t2, -, -, t5, -⟩ := tryInit_any env g _ b1 h1 (by omega)
  obtain ⟨-, -, r3, -⟩ := tryUpdate_any env g b1 b2 m.ts h2 t2 (by omega)
  obtain ⟨-, -, -, c4⟩ := cleanAtt_any _ _ h3
  rw [c4, r3, t5]; rfl

section Safe
variable [LinearOrder T] [TimeLaws T] [CastLaws T K]

/-- Nothing is left of the queue exactly when every state is too old. -/
theorem reset_nil_iff (s : PropQueue K T) (ts thr : T) : (s.resetOrigin ts thr).1.items = [] ↔ ∀ t ∈ times s.items, thr < TimeOps.sub ts t := by
  obtain ⟨old, o1, o2, o3, -, -⟩ := C37_reset s ts thr
  generalize (s.resetOrigin ts thr).1.items = kept at o1 o3 ⊢
  constructor
  · rintro rfl t ht
    obtain ⟨i, hi, rfl⟩ := List.mem_map.1 ht
    rw [o1, List.append_nil] at hi
    exact (TimeLaws.lt_iff _ _).1 (o2 i hi)
  · intro h
    cases kept with
    | nil => rfl
    | cons i kept =>
      have h1 := o3 i rfl
      have h2 := (TimeLaws.lt_iff _ _).2 (h i.ts (List.mem_map.2 ⟨i, by rw [o1]; simp, rfl⟩))
      rw [h1] at h2; cases h2

/-- C119 for one call: `RunOnce` handling an image ends the run of a running filter exactly when every queued state, and the IMU sample taken in the same call, is older than
the image by more than the IMU period.  What the image shows plays no part. -/
theorem fall_iff (env : Env K) (g : Vec3 K) {nc N U : Nat} {l : Log K T} {b : Backend K T} (h : Stable False nc N U l b) (hfit : Fits nc (max 1 N + 1) U) (hN : max 1 N + 1 < two32)
    (h0 : TimeOps.tlit 0 ≤ b.loader.imuPeriod) (h1 : TimeOps.mul b.loader.imuPeriod (TimeOps.tlit (55/100)) ≤ b.loader.imuPeriod)
    (hm : ∀ m, b.loader.popOne.out.featMeas = some m → GoodMsg l m ∧ GoodObs nc m ∧ l.base + l.msgs.length + 1 < two32) (hs : b.status = .initialized)
    (hne : b.u.q.items ≠ []) {r : Bool} {b' : Backend K T} (hb' : b.runOnce env g = .ok (r, b')) :
    b'.status = .needInit ↔ ∃ m, b.loader.popOne.out.featMeas = some m ∧ (∀ i ∈ b.u.q.items, b.loader.imuPeriod < TimeOps.sub m.ts i.ts) ∧
      ∀ s ∈ b.loader.popOne.out.imuMeas, b.loader.imuPeriod < TimeOps.sub m.ts s.ts := by
  obtain ⟨r', b2, l', e, hst, -⟩ := runOnce_ok False env g h hfit h0 h1 hm (fun hc => hc.elim)
  rw [hb'] at e
  cases e
  rcases runOnce_eq env g b b' r hb' with ⟨p1, -, rfl⟩ | ⟨-, res, b1, e1, e2⟩
  · have hn : b.loader.popOne.out.featMeas = none := by
      revert p1
      unfold Loader.popOne
      split
      · split
        · split <;> exact (nomatch ·)
        · exact (nomatch ·)
      · exact (nomatch ·)
      · exact (nomatch ·)
      · exact fun _ => rfl
    constructor
    · intro hc; exact absurd (hs.symm.trans hc) (by decide)
    · rintro ⟨m, hc, -⟩; rw [hn] at hc; cases hc
  · have k := onImu_keep _ _ _ _ _ e1
    have k1 : b1.loader.imuPeriod = b.loader.imuPeriod := by rw [k.1]; exact pop_period _
    have k2 : b1.status = .initialized := k.2.1.trans hs
    have k3 : b1.u.w = b.u.w := k.2.2.1
    have hq : times b1.u.q.items = times b.u.q.items ++ b.loader.popOne.out.imuMeas.map (·.ts) := by
      rcases popOne_short b.loader with hc | ⟨s, hc⟩
      · rw [hc] at e1 ⊢
        cases e1
        simp
      · rw [hc] at e1 ⊢
        exact onImu_states g { b with loader := b.loader.popOne.loader } b1 s [] res e1 hs hne
    rcases e2 with ⟨p1, -, rfl⟩ | ⟨m, p1, -, e2⟩
    · constructor
      · intro hc; exact absurd (k2.symm.trans hc) (by decide)
      · rintro ⟨m, hc, -⟩; rw [p1] at hc; cases hc
    · obtain ⟨c1, c2, t1, t2, t3⟩ := onFeat_eq env g b1 b' m e2
      have hw : b1.u.w.frm.frames.length ≤ max 1 N := by rw [k3, h.rel.len]; exact h.len
      have i1 : (b1.setWin (b1.u.w.insert m)).u.w.frm.frames.length = b1.u.w.frm.frames.length + 1 := (insert_length b1.u.w m).1
      have ht : c1 = b1.setWin (b1.u.w.insert m) := by
        unfold tryInit at t1
        have : (b1.setWin (b1.u.w.insert m)).status = .initialized := k2
        rw [this] at t1
        cases t1; rfl
      subst ht
      obtain ⟨-, -, -, -, r5, r6, -⟩ := tryUpdate_any env g _ c2 m.ts t2 (by omega) (by omega)
      obtain ⟨d1, d2, -, -⟩ := cleanAtt_any _ _ t3
      have r5 : times c2.u.q.items = times (b1.u.q.resetOrigin m.ts b1.loader.imuPeriod).1.items := r5 k2
      have key : b'.status = .needInit ↔ (b1.u.q.resetOrigin m.ts b1.loader.imuPeriod).1.items = [] := by
        rw [← d1] at r5
        constructor
        · intro hc
          have := (hst.idle hc).2
          rw [this] at r5
          exact List.map_eq_nil_iff.1 r5.symm
        · intro hc
          rw [hc] at r5
          cases hb : b'.status with
          | needInit => rfl
          | initialized =>
            rw [d2] at hb
            have := (r6 hb).1
            rw [← d1] at this
            exact absurd (List.map_eq_nil_iff.1 r5) this
      rw [key, reset_nil_iff, hq, k1, p1]
      constructor
      · intro hall
        exact ⟨m, rfl, fun i hi => hall i.ts (List.mem_append_left _ (List.mem_map.2 ⟨i, hi, rfl⟩)), fun s hs => hall s.ts (List.mem_append_right _ (List.mem_map.2 ⟨s, hs, rfl⟩))⟩
      · rintro ⟨m', e, g1, g2⟩ t htt
        cases e
        rcases List.mem_append.1 htt with htt | htt
        · obtain ⟨i, hi, rfl⟩ := List.mem_map.1 htt
          exact g1 i hi
        · obtain ⟨s, hs, rfl⟩ := List.mem_map.1 htt
          exact g2 s hs

/-! ### Histories -/

/-- Raw times of the IMU samples, as the loader stores them, that cannot be missing any more: in the loader, or not newer than anything the filter has or will get. -/
def Covered (off : T) (fut : List T) (b : Backend K T) (y : T) : Prop :=
  (∃ s ∈ b.loader.imuMeas, s.ts = y) ∨
  ((∀ s ∈ b.loader.imuMeas, y ≤ s.ts) ∧ (∀ t ∈ fut, y ≤ TimeOps.sub t off) ∧ ∀ a, b.att.items.getLast? = some a → y ≤ a.ts)

/-- Every image comes after an IMU sample that is not newer and at most `per` older.  `seen` holds the raw times of the samples pushed so far, `off` is the offset the
loader subtracts from all times. -/
def Served (off per : T) : List T → List (BOp K T) → Prop
  | _, [] => True
  | seen, .imu m :: ops => Served off per (m.ts :: seen) ops
  | seen, .feat m :: ops => (∃ x ∈ seen, TimeOps.sub x off ≤ TimeOps.sub m.ts off ∧ TimeOps.sub (TimeOps.sub m.ts off) (TimeOps.sub x off) ≤ per) ∧ Served off per seen ops
  | seen, _ :: ops => Served off per seen ops

/-- What holds between the calls of such a history: `seen` are the samples pushed, `fut` those to come. -/
structure Fed (off per : T) (seen fut : List T) (p : BProc K T) : Prop where
  offset : p.b.loader.offset = off
  period : p.b.loader.imuPeriod = per
  ord : OrdInv fut p.b
  time : TimeInv p.b
  prev : ∀ y, p.statics.lastImu = some y → (∀ t ∈ fut, y ≤ TimeOps.sub t off) ∧ (Covered off fut p.b y ∨ ∀ t ∈ fut, y < TimeOps.sub t off)
  seen : ∀ x ∈ seen, Covered off fut p.b (TimeOps.sub x off)
  feats : ∀ m ∈ p.b.loader.featMeas, ∃ y, Covered off fut p.b y ∧ y ≤ m.ts ∧ TimeOps.sub m.ts y ≤ per

/-- After a sample has been handled the newest attitude, if there is one, is not older. -/
theorem onImu_newest (g : Vec3 K) (b b' : Backend K T) (m : ImuMsg K T) (ms : List (ImuMsg K T)) (r : Bool) (h : b.onImu g (m :: ms) = .ok (r, b'))
    (ho : ∀ a, b.att.items.getLast? = some a → a.ts ≤ m.ts) : ∀ a, b'.att.items.getLast? = some a → m.ts ≤ a.ts := by
  have e : b'.att = (b.att.propagate g m.accel m.gyro m.ts).1 := by
    rw [onImu] at h
    generalize b.att.propagate g m.accel m.gyro m.ts = ar at h
    obtain ⟨att, res⟩ := ar
    dsimp only at h
    split at h
    · cases h; rfl
    · split at h
      · cases h; rfl
      · cases h
  rw [e]
  intro a ha
  rcases propagate_items b.att g m.accel m.gyro m.ts with hp | ⟨it, p1, p2, -⟩
  · rw [hp] at ha
    have hlt : TimeOps.lt m.ts a.ts = false := by
      by_contra hc
      exact absurd ((TimeLaws.lt_iff _ _).1 (by simpa using hc)) (not_lt.2 (ho a ha))
    obtain ⟨q, hq, -⟩ := C24_accepted b.att g m.accel m.gyro m.ts a ha hlt
    have := congrArg List.length (hq.symm.trans (congrArg Att.items hp))
    simp at this
  · rw [p1] at ha
    simp only [List.getLast?_concat, Option.some.injEq] at ha
    subst ha
    exact le_of_eq p2.symm

/-- What is covered stays covered by `RunOnce`. -/
theorem Covered.runOnce {off : T} {fut : List T} {b b' : Backend K T} (ho : OrdInv fut b) (hoff : b.loader.offset = off) (hnan : TimeOps.isNaN off = false) (env : Env K) (g : Vec3 K) {r : Bool}
    (hlt : b.u.w.frm.frames.length + 1 < two32) (hb' : b.runOnce env g = .ok (r, b')) {y : T} (hy : Covered off fut b y) : Covered off fut b' y := by
  have hl := runOnce_loader _ _ _ _ _ hb'
  obtain ⟨q1, -⟩ := popOne_imu b.loader
  have hsort := ho.sorted
  rw [← q1] at hsort
  have hsort := (List.pairwise_append.1 hsort).2.2
  -- the newest attitude
  have hnew : (b.loader.popOne.out.imuMeas = [] ∧ b'.att.items.getLast? = b.att.items.getLast?) ∨
      ∃ s, b.loader.popOne.out.imuMeas = [s] ∧ ∀ a, b'.att.items.getLast? = some a → s.ts ≤ a.ts := by
    rcases runOnce_eq env g b b' r hb' with ⟨p1, -, rfl⟩ | ⟨-, res, b1, e1, e2⟩
    · left
      refine ⟨?_, rfl⟩
      revert p1
      unfold Loader.popOne
      split
      · split
        · split <;> exact (nomatch ·)
        · exact (nomatch ·)
      · exact (nomatch ·)
      · exact (nomatch ·)
      · exact fun _ => rfl
    · have k := onImu_keep _ _ _ _ _ e1
      have k3 : b1.u.w = b.u.w := k.2.2.1
      have h2 : b'.att.items.getLast? = b1.att.items.getLast? := by
        rcases e2 with ⟨-, -, rfl⟩ | ⟨m, -, -, e2⟩
        · rfl
        · exact onFeat_last env g b1 b' m e2 (by rw [k3]; exact hlt)
      rcases popOne_short b.loader with hc | ⟨s, hc⟩
      · rw [hc] at e1
        cases e1
        exact .inl ⟨hc, h2⟩
      · right
        refine ⟨s, hc, ?_⟩
        rw [hc] at e1
        rw [h2]
        exact onImu_newest g { b with loader := b.loader.popOne.loader } b1 s [] res e1 (fun a ha => ho.att a (List.mem_of_getLast? ha) s (by rw [← q1, hc]; simp))
  have hfut := ho.fut (by rw [hoff]; exact hnan)
  rw [hoff] at hfut
  unfold Covered
  rw [hl]
  rcases hy with ⟨s, hs, rfl⟩ | ⟨g1, g2, g3⟩
  · rw [← q1] at hs
    rcases List.mem_append.1 hs with hs | hs
    · right
      refine ⟨fun x hx => hsort s hs x hx, fun t ht => (hfut t ht).1 s (by rw [← q1]; simp [hs]), ?_⟩
      rcases hnew with ⟨h1, -⟩ | ⟨s', h1, h2⟩
      · rw [h1] at hs; cases hs
      · rw [h1, List.mem_singleton] at hs
        subst hs; exact h2
    · exact .inl ⟨s, hs, rfl⟩
  · right
    refine ⟨fun x hx => g1 x (by rw [← q1]; simp [hx]), g2, ?_⟩
    rcases hnew with ⟨-, h2⟩ | ⟨s', h1, h2⟩
    · rw [h2]; exact g3
    · exact fun a ha => (g1 s' (by rw [← q1, h1]; simp)).trans (h2 a ha)

/-- An image that is handled while something is covered finds a state or sample of that age. -/
theorem Covered.found {off : T} {fut : List T} {b : Backend K T} (ho : OrdInv fut b) (ht : TimeInv b) (hs : b.status = .initialized) (hper : TimeOps.tlit 0 < b.loader.imuPeriod)
    {m : FeatMsg K T} (hm : b.loader.popOne.out.featMeas = some m) {y : T} (hy : Covered off fut b y) (hym : y ≤ m.ts) (hage : TimeOps.sub m.ts y ≤ b.loader.imuPeriod) :
    ¬ ((∀ i ∈ b.u.q.items, b.loader.imuPeriod < TimeOps.sub m.ts i.ts) ∧ ∀ s ∈ b.loader.popOne.out.imuMeas, b.loader.imuPeriod < TimeOps.sub m.ts s.ts) := by
  rintro ⟨h1, h2⟩
  rcases hy with ⟨s, hsm, rfl⟩ | ⟨-, -, g3⟩
  · have : ∃ s' ∈ b.loader.popOne.out.imuMeas, s'.ts = s.ts := by
      have hsort := ho.sorted
      revert hm
      unfold Loader.popOne
      cases hi : b.loader.imuMeas with
      | nil => rw [hi] at hsm; cases hsm
      | cons i is =>
        rw [hi] at hsm hsort
        have hle : i.ts ≤ s.ts := by
          rcases List.mem_cons.1 hsm with rfl | hc
          · exact le_rfl
          · exact (List.pairwise_cons.1 hsort).1 s hc
        cases hf : b.loader.featMeas with
        | nil => exact (nomatch ·)
        | cons f fs =>
          dsimp only
          split
          · rename_i hc
            have hc := (TimeLaws.le_iff _ _).1 hc
            split
            · intro e
              cases e
              exact ⟨i, by simp, le_antisymm hle (hym.trans hc)⟩
            · rename_i hn
              intro e
              cases e
              have e : i.ts = m.ts := le_antisymm (hle.trans hym) hc
              rw [e, TimeLaws.sub_self, TimeLaws.fabs_of_nonneg _ le_rfl] at hn
              exact absurd ((TimeLaws.lt_iff _ _).2 hper) hn
          · exact (nomatch ·)
    obtain ⟨s', hs', e⟩ := this
    have := h2 s' hs'
    rw [e] at this
    exact absurd this (not_lt.2 hage)
  · obtain ⟨z, hz⟩ := Option.ne_none_iff_exists'.1 (mt List.getLast?_eq_none_iff.1 (ht.ne hs))
    obtain ⟨a, a1, -, a3⟩ := ht.last z hz
    have := h1 z (List.mem_of_getLast? hz)
    rw [a3 hs] at this
    exact absurd this (not_lt.2 ((TimeLaws.sub_le_sub_right _ _ _ (g3 a a1)).trans hage))

/-- C119 for a state in mid-history. -/
theorem served_stays (nc N U : Nat) (off per : T) (hfit : Fits nc (max 1 N + 1) U) (hN : max 1 N + 1 < two32) (hnan : TimeOps.isNaN off = false) (hper : TimeOps.tlit 0 < per)
    (hhalf : TimeOps.mul per (TimeOps.tlit (55/100)) ≤ per) (ops : List (BOp K T)) : ∀ (p : BProc K T) (l : Log K T) (seen : List T), Stable False nc N U l p.b →
    Fed off per seen (imuTimes ops) p → (imuTimes ops).Pairwise (· ≤ ·) → (∀ t ∈ imuTimes ops, TimeOps.isNaN t = false) →
    (∀ t ∈ imuTimes ops, TimeOps.sub (TimeOps.sub t off) (TimeOps.tlit 1) < TimeOps.sub t off) → (∀ op ∈ ops, op ≠ .runTest) → Served off per seen ops → GoodRun nc p ops →
    Stays p ops := by
  induction ops with
  | nil => intro p l seen _ _ _ _ _ _ _ _; trivial
  | cons op ops ih =>
    intro p l seen h hf hord hn h1 hnt hsv hg
    have hnt' : ∀ op ∈ ops, op ≠ .runTest := fun o ho => hnt o (List.mem_cons_of_mem _ ho)
    rintro p' o e
    have hg' := hg.2 p' o e
    cases op with
    | run env =>
      have hbd : Bounded N p.b := ⟨h.size, by rw [h.rel.len]; exact h.len⟩
      have hlt : p.b.u.w.frm.frames.length + 1 < two32 := by have := hbd.2; omega
      obtain ⟨⟨r, b'⟩, hb', e⟩ := Res.bind_eq_ok.1 e
      cases e
      obtain ⟨l, h, hb1⟩ := stable_base h
      have hm := callOk_msg h hb1 env hg.1
      obtain ⟨t1, t2, -⟩ := runOnce_time env p.g N hN _ p.b b' r hbd hf.time hf.ord hb'
      obtain ⟨r', b2, l', e, hst, -⟩ := runOnce_ok False env p.g h hfit (by rw [hf.period]; exact le_of_lt hper) (by rw [hf.period]; exact hhalf) hm (fun hc => hc.elim)
      rw [hb'] at e
      cases e
      have hl := runOnce_loader _ _ _ _ _ hb'
      have hcov : ∀ y, Covered off (imuTimes ops) p.b y → Covered off (imuTimes ops) b' y := fun y hy => hy.runOnce hf.ord hf.offset hnan env p.g hlt hb'
      constructor
      · intro hs
        cases hb : b'.status with
        | initialized => rfl
        | needInit =>
          obtain ⟨m, m1, m2⟩ := (fall_iff env p.g h hfit hN (by rw [hf.period]; exact le_of_lt hper) (by rw [hf.period]; exact hhalf) hm hs (hf.time.ne hs) hb').1 hb
          have hq := pop_feat p.b.loader
          obtain ⟨y, y1, y2, y3⟩ := hf.feats m (by rw [← hq, m1]; simp)
          exact absurd m2 (y1.found hf.ord hf.time hs (by rw [hf.period]; exact hper) m1 y2 (by rw [hf.period]; exact y3))
      · refine ih _ l' seen hst ⟨?_, ?_, t2, t1, ?_, fun x hx => hcov _ (hf.seen x hx), ?_⟩ hord hn h1 hnt' hsv hg'
        · show b'.loader.offset = _; rw [hl, (popOne_imu _).2]; exact hf.offset
        · show b'.loader.imuPeriod = _; rw [hl, pop_period]; exact hf.period
        · intro y hy
          obtain ⟨y1, y2⟩ := hf.prev y hy
          exact ⟨y1, y2.imp_left (hcov y)⟩
        · intro m hmm
          have hq := pop_feat p.b.loader
          have hmm : m ∈ p.b.loader.popOne.loader.featMeas := by rw [← hl]; exact hmm
          obtain ⟨y, y1, y2⟩ := hf.feats m (by rw [← hq]; simp [hmm])
          exact ⟨y, hcov y y1, y2⟩
    | imu m =>
      cases e
      refine ⟨id, ?_⟩
      obtain ⟨hp1, hp2⟩ := List.pairwise_cons.1 hord
      have hoff : (if TimeOps.isNaN p.b.loader.offset then m.ts else p.b.loader.offset) = off := by rw [hf.offset, hnan]; rfl
      have hx : TimeOps.sub m.ts off ∈ (TimeOps.sub m.ts off) :: (imuTimes ops).map (fun t => TimeOps.sub t off) := by simp
      have ord' := OrdInv.pushImu m hf.ord hp1 (hn m.ts (by simp [imuTimes])) p.statics
      have hle : ∀ t ∈ imuTimes ops, TimeOps.sub m.ts off ≤ TimeOps.sub t off := fun t ht => TimeLaws.sub_le_sub_left _ _ _ (hp1 t ht)
      -- what the push does
      obtain ⟨q1, q2, q3, q4, q5⟩ : (p.b.loader.pushImu p.statics m).loader.offset = off ∧ (p.b.loader.pushImu p.statics m).loader.imuPeriod = per ∧
          (p.b.loader.pushImu p.statics m).loader.featMeas = p.b.loader.featMeas ∧ (p.b.loader.pushImu p.statics m).statics.lastImu = some (TimeOps.sub m.ts off) ∧
          ((p.b.loader.pushImu p.statics m).loader.imuMeas = p.b.loader.imuMeas ++ [{ m with ts := TimeOps.sub m.ts off }] ∨
            (p.b.loader.pushImu p.statics m).loader.imuMeas = p.b.loader.imuMeas ∧ ∃ y, p.statics.lastImu = some y ∧ ¬ y < TimeOps.sub m.ts off) := by
        unfold Loader.pushImu
        rw [hoff]
        refine ⟨rfl, hf.period, rfl, rfl, ?_⟩
        dsimp only
        split
        · exact .inl rfl
        · rename_i hc
          refine .inr ⟨rfl, ?_⟩
          cases hy : p.statics.lastImu with
          | none =>
            rw [hy] at hc
            exact absurd ((TimeLaws.lt_iff _ _).2 (h1 m.ts (by simp [imuTimes]))) hc
          | some y =>
            rw [hy] at hc
            exact ⟨y, rfl, fun hlt => hc ((TimeLaws.lt_iff _ _).2 hlt)⟩
      have hcov : ∀ y, Covered off (imuTimes (.imu m :: ops)) p.b y → Covered off (imuTimes ops) { p.b with loader := (p.b.loader.pushImu p.statics m).loader } y := by
        rintro y (⟨s, hs, rfl⟩ | ⟨g1, g2, g3⟩)
        · left
          refine ⟨s, ?_, rfl⟩
          rcases q5 with q5 | ⟨q5, -⟩
          · dsimp only; rw [q5]; simp [hs]
          · dsimp only; rw [q5]; exact hs
        · right
          refine ⟨?_, fun t ht => g2 t (List.mem_cons_of_mem _ ht), g3⟩
          intro s hs
          dsimp only at hs
          rcases q5 with q5 | ⟨q5, -⟩
          · rw [q5] at hs
            rcases List.mem_append.1 hs with hs | hs
            · exact g1 s hs
            · rw [List.mem_singleton.1 hs]; exact g2 m.ts (by simp [imuTimes])
          · rw [q5] at hs; exact g1 s hs
      have hthis : Covered off (imuTimes ops) { p.b with loader := (p.b.loader.pushImu p.statics m).loader } (TimeOps.sub m.ts off) := by
        rcases q5 with q5 | ⟨-, y, y1, y2⟩
        · exact .inl ⟨{ m with ts := TimeOps.sub m.ts off }, by dsimp only; rw [q5]; simp, rfl⟩
        · obtain ⟨p1, p2⟩ := hf.prev y y1
          have hmem : m.ts ∈ imuTimes (.imu m :: ops) := by simp [imuTimes]
          have e : y = TimeOps.sub m.ts off := le_antisymm (p1 _ hmem) (not_lt.1 y2)
          rcases p2 with p2 | p2
          · rw [← e]; exact hcov y p2
          · exact absurd (p2 _ hmem) y2
      refine ih _ l (m.ts :: seen) (stable_loader h _) ⟨q1, q2, ord', ⟨hf.time.last, hf.time.ne⟩, ?_, ?_, ?_⟩ hp2 (fun t ht => hn t (List.mem_cons_of_mem _ ht))
        (fun t ht => h1 t (List.mem_cons_of_mem _ ht)) hnt' hsv hg'
      · intro y hy
        rw [q4] at hy
        cases hy
        exact ⟨hle, .inl hthis⟩
      · intro x hx
        rcases List.mem_cons.1 hx with rfl | hx
        · exact hthis
        · exact hcov _ (hf.seen x hx)
      · intro f hff
        have hff : f ∈ p.b.loader.featMeas := by rw [← q3]; exact hff
        obtain ⟨y, y1, y2⟩ := hf.feats f hff
        exact ⟨y, hcov y y1, y2⟩
    | feat m =>
      cases e
      refine ⟨id, ?_⟩
      obtain ⟨hx, hsv⟩ := hsv
      have ord' := hf.ord.pushFeatures m p.statics
      obtain ⟨q1, q2, q3, q4, q5⟩ : (p.b.loader.pushFeatures p.statics m).loader.offset = off ∧ (p.b.loader.pushFeatures p.statics m).loader.imuPeriod = per ∧
          (p.b.loader.pushFeatures p.statics m).loader.imuMeas = p.b.loader.imuMeas ∧ (p.b.loader.pushFeatures p.statics m).statics.lastImu = p.statics.lastImu ∧
          ∀ f ∈ (p.b.loader.pushFeatures p.statics m).loader.featMeas, f ∈ p.b.loader.featMeas ∨ f.ts = TimeOps.sub m.ts off := by
        have hoff : (if TimeOps.isNaN p.b.loader.offset then m.ts else p.b.loader.offset) = off := by rw [hf.offset, hnan]; rfl
        unfold Loader.pushFeatures
        rw [hoff]
        split
        · exact ⟨hf.offset, hf.period, rfl, rfl, fun f hff => .inl hff⟩
        · refine ⟨rfl, hf.period, rfl, rfl, ?_⟩
          dsimp only
          split
          · intro f hff
            rcases List.mem_append.1 hff with hff | hff
            · exact .inl hff
            · rw [List.mem_singleton.1 hff]; exact .inr rfl
          · exact fun f hff => .inl hff
      have hcov : ∀ y, Covered off (imuTimes ops) p.b y → Covered off (imuTimes ops) { p.b with loader := (p.b.loader.pushFeatures p.statics m).loader } y := by
        intro y hy
        unfold Covered
        dsimp only
        rw [q3]; exact hy
      refine ih _ l seen (stable_loader h _) ⟨q1, q2, ord', ⟨hf.time.last, hf.time.ne⟩, ?_, fun x hx => hcov _ (hf.seen x hx), ?_⟩ hord hn h1 hnt' hsv hg'
      · intro y hy
        obtain ⟨y1, y2⟩ := hf.prev y (by rw [← q4]; exact hy)
        exact ⟨y1, y2.imp_left (hcov y)⟩
      · intro f hff
        rcases q5 f hff with hff | hff
        · obtain ⟨y, y1, y2⟩ := hf.feats f hff
          exact ⟨y, hcov y y1, y2⟩
        · obtain ⟨x, x1, x2, x3⟩ := hx
          exact ⟨TimeOps.sub x off, hcov _ (hf.seen x x1), by rw [hff]; exact x2, by rw [hff]; exact x3⟩
    | runTest => exact absurd rfl (hnt .runTest (by simp))
    | publishPropagate =>
      obtain ⟨_, _, e⟩ := Res.bind_eq_ok.1 e
      cases e
      exact ⟨id, ih _ l seen h hf hord hn h1 hnt' hsv hg'⟩
    | publishUpdate =>
      obtain ⟨_, _, e⟩ := Res.bind_eq_ok.1 e
      cases e
      exact ⟨id, ih _ l seen h hf hord hn h1 hnt' hsv hg'⟩
    | reset => exact hg.1.elim

theorem step_period (p p' : BProc K T) (op : BOp K T) (o : BOut K T) (h : p.step op = .ok (p', o)) : p'.b.loader.imuPeriod = p.b.loader.imuPeriod := by
  cases op with
  | imu m => cases h; rfl
  | feat m => cases h; exact push_period _ _ _
  | run env =>
    obtain ⟨⟨r, b'⟩, hb', h⟩ := Res.bind_eq_ok.1 h
    cases h
    show b'.loader.imuPeriod = _
    rw [runOnce_loader _ _ _ _ _ hb', pop_period]
  | runTest => cases h; exact pop_period _
  | publishPropagate => obtain ⟨_, _, h⟩ := Res.bind_eq_ok.1 h; cases h; rfl
  | publishUpdate => obtain ⟨_, _, h⟩ := Res.bind_eq_ok.1 h; cases h; rfl
  | reset => cases h; rfl

/-- Splitting a good history. -/
theorem GoodRun.split {nc : Nat} (a b : List (BOp K T)) : ∀ (p q : BProc K T) (o : List (BOut K T)), GoodRun nc p (a ++ b) → p.run a = .ok (q, o) →
    GoodRun nc p a ∧ GoodRun nc q b ∧ q.b.loader.imuPeriod = p.b.loader.imuPeriod := by
  induction a with
  | nil => intro p q o h e; cases e; exact ⟨trivial, h, rfl⟩
  | cons op a ih =>
    intro p q o h e
    rw [BProc.run] at e
    obtain ⟨⟨p1, o1⟩, e1, e⟩ := Res.bind_eq_ok.1 e
    obtain ⟨⟨p2, os⟩, e2, e⟩ := Res.bind_eq_ok.1 e
    cases e
    obtain ⟨g1, g2, g3⟩ := ih p1 q os (h.2 p1 o1 e1) e2
    refine ⟨⟨h.1, ?_⟩, g2, g3.trans (step_period _ _ _ _ e1)⟩
    intro p' o' e'
    rw [e1] at e'
    cases e'
    exact g1

theorem Stays.run (ops : List (BOp K T)) : ∀ (p p' : BProc K T) (o : List (BOut K T)), Stays p ops → p.b.status = .initialized → p.run ops = .ok (p', o) → p'.b.status = .initialized := by
  induction ops with
  | nil => intro p p' o _ hs e; cases e; exact hs
  | cons op ops ih =>
    intro p p' o h hs e
    rw [BProc.run] at e
    obtain ⟨⟨p1, o1⟩, e1, e⟩ := Res.bind_eq_ok.1 e
    obtain ⟨⟨p2, os⟩, e2, e⟩ := Res.bind_eq_ok.1 e
    cases e
    obtain ⟨g1, g2⟩ := h p1 o1 e1
    exact ih p1 p' os g2 (g1 hs) e2

theorem Stays.tail (a b : List (BOp K T)) : ∀ (p q : BProc K T) (o : List (BOut K T)), Stays p (a ++ b) → p.run a = .ok (q, o) → Stays q b := by
  induction a with
  | nil => intro p q o h e; cases e; exact h
  | cons op a ih =>
    intro p q o h e
    rw [BProc.run] at e
    obtain ⟨⟨p1, o1⟩, e1, e⟩ := Res.bind_eq_ok.1 e
    obtain ⟨⟨p2, os⟩, e2, e⟩ := Res.bind_eq_ok.1 e
    cases e
    exact ih p1 q os (h p1 o1 e1).2 e2

/-- C119 at a call: in a well-formed history, a `RunOnce` takes a running filter back to initialisation exactly when it handles an image and every queued state, as well as the
IMU sample taken in the same call, is older than the image by more than the IMU period.  What the images show plays no part. -/
theorem C119_falls_back_iff (p p1 p2 : BProc K T) (ops : List (BOp K T)) (outs : List (BOut K T)) (env : Env K) (o : BOut K T) (hf : Fresh p.b) (hr : Ready p.b)
    (hg : GoodRun p.b.u.w.frm.extrinsics.length p (ops ++ [.run env])) (h : p.run ops = .ok (p1, outs)) (hs : p1.b.status = .initialized) (h2 : p1.step (.run env) = .ok (p2, o)) :
    p2.b.status = .needInit ↔ ∃ m, p1.b.loader.popOne.out.featMeas = some m ∧ (∀ i ∈ p1.b.u.q.items, p1.b.loader.imuPeriod < TimeOps.sub m.ts i.ts) ∧
      ∀ s ∈ p1.b.loader.popOne.out.imuMeas, p1.b.loader.imuPeriod < TimeOps.sub m.ts s.ts := by
  obtain ⟨g1, g2, g3⟩ := GoodRun.split ops [.run env] p p1 outs hg h
  obtain ⟨p', outs', e, l, hst⟩ := safe_run _ _ _ hr.fits ops p Log.empty (fresh_stable p.b hf hr) hr.period hr.half g1
  rw [h] at e
  cases e
  obtain ⟨l, hst, hb1⟩ := stable_base hst
  obtain ⟨⟨r, b'⟩, hb', h2⟩ := Res.bind_eq_ok.1 h2
  cases h2
  have hN := hr.fits.cols
  exact fall_iff env p1.g hst hr.fits (by omega) (by rw [g3]; exact hr.period) (by rw [g3]; exact hr.half) (callOk_msg hst hb1 env g2.1) hs (hst.live hs).2.ne hb'

/-- C119 in terms of the input: IMU samples pushed in time order, and every image pushed after a sample that is not newer and at most the IMU period older.  Then no call ever takes
a running filter back to initialisation. -/
theorem C119_stays (p : BProc K T) (ops : List (BOp K T)) (hf : Fresh p.b) (hr : Ready p.b) (hg : GoodRun p.b.u.w.frm.extrinsics.length p ops)
    (hnan : TimeOps.isNaN p.b.loader.offset = false) (hper : TimeOps.tlit 0 < p.b.loader.imuPeriod)
    (hord : (imuTimes ops).Pairwise (· ≤ ·)) (hn : ∀ t ∈ imuTimes ops, TimeOps.isNaN t = false)
    (h1 : ∀ t ∈ imuTimes ops, TimeOps.sub (TimeOps.sub t p.b.loader.offset) (TimeOps.tlit 1) < TimeOps.sub t p.b.loader.offset)
    (hlast : ∀ y, p.statics.lastImu = some y → ∀ t ∈ imuTimes ops, y < TimeOps.sub t p.b.loader.offset)
    (hnt : ∀ op ∈ ops, op ≠ .runTest) (hsv : Served p.b.loader.offset p.b.loader.imuPeriod [] ops) : Stays p ops := by
  have hN := hr.fits.cols
  refine served_stays _ _ _ _ _ hr.fits (by omega) hnan hper hr.half ops p Log.empty [] (fresh_stable p.b hf hr) ⟨rfl, rfl, ⟨?_, ?_, ?_, ?_⟩, ⟨?_, ?_⟩, ?_, ?_, ?_⟩ hord hn h1 hnt hsv hg
  · rw [hf.imu]; exact .nil
  · rw [hf.att]; simp
  · rw [hf.att, hf.imu]; simp
  · exact fun _ => ⟨hf.imu, hf.att⟩
  · rw [hf.states]; simp
  · rw [hf.status]; exact (nomatch ·)
  · exact fun y hy => ⟨fun t ht => le_of_lt (hlast y hy t ht), .inr (hlast y hy)⟩
  · simp
  · rw [hf.feat]; simp

/-- C119: such a filter, once running, runs to the end of the history. -/
theorem C119_running (p p1 p2 : BProc K T) (a b : List (BOp K T)) (o1 o2 : List (BOut K T)) (hf : Fresh p.b) (hr : Ready p.b)
    (hres : ∀ op ∈ a ++ b, op ≠ .reset ∧ op ≠ .runTest)
    (hm : ∀ m ∈ featMsgs (a ++ b), MsgOk p.b.u.w.frm.extrinsics.length m) (hc : Continuous ((featMsgs (a ++ b)).map (·.ids))) (hlen : (featMsgs (a ++ b)).length + 1 < two32)
    (hnan : TimeOps.isNaN p.b.loader.offset = false) (hper : TimeOps.tlit 0 < p.b.loader.imuPeriod)
    (hord : (imuTimes (a ++ b)).Pairwise (· ≤ ·)) (hn : ∀ t ∈ imuTimes (a ++ b), TimeOps.isNaN t = false)
    (h1 : ∀ t ∈ imuTimes (a ++ b), TimeOps.sub (TimeOps.sub t p.b.loader.offset) (TimeOps.tlit 1) < TimeOps.sub t p.b.loader.offset)
    (hlast : p.statics.lastImu = none) (hsv : Served p.b.loader.offset p.b.loader.imuPeriod [] (a ++ b))
    (ha : p.run a = .ok (p1, o1)) (hs : p1.b.status = .initialized) (hb : p1.run b = .ok (p2, o2)) : p2.b.status = .initialized := by
  have hg := tracker_goodRun p (a ++ b) hf hr (fun op hop => (hres op hop).1) hm hc hlen
  have hst := C119_stays p (a ++ b) hf hr hg hnan hper hord hn h1 (fun y hy => by rw [hlast] at hy; cases hy) (fun op hop => (hres op hop).2) hsv
  exact Stays.run b p1 p2 o2 (Stays.tail a b p p1 o1 hst ha) hs hb

/-- C77 and C119 together, partial as `C77_once_partial` is: with such input the readings in the queue are those that were pushed; no bias has been subtracted from any of them.
Partial: input with gaps is not covered, `C77_twice` shows that it cannot be. -/
theorem C77_served_partial (hz : ∀ v : Vec3 K, v - 0 = v) (p p' : BProc K T) (ops : List (BOp K T)) (outs : List (BOut K T)) (hf : Fresh p.b) (hr : Ready p.b)
    (hg : GoodRun p.b.u.w.frm.extrinsics.length p ops) (hba : p.b.att.biasA = 0) (hbg : p.b.att.biasG = 0)
    (hnan : TimeOps.isNaN p.b.loader.offset = false) (hper : TimeOps.tlit 0 < p.b.loader.imuPeriod)
    (hord : (imuTimes ops).Pairwise (· ≤ ·)) (hn : ∀ t ∈ imuTimes ops, TimeOps.isNaN t = false)
    (h1 : ∀ t ∈ imuTimes ops, TimeOps.sub (TimeOps.sub t p.b.loader.offset) (TimeOps.tlit 1) < TimeOps.sub t p.b.loader.offset)
    (hlast : p.statics.lastImu = none) (hnt : ∀ op ∈ ops, op ≠ .runTest) (hsv : Served p.b.loader.offset p.b.loader.imuPeriod [] ops) (h : p.run ops = .ok (p', outs)) :
    ∀ i ∈ p'.b.u.q.items, (i.accel, i.gyro) ∈ readings ops := by
  have hst := C119_stays p ops hf hr hg hnan hper hord hn h1 (fun y hy => by rw [hlast] at hy; cases hy) hnt hsv
  refine (C77_once_partial hz (readings ops) ops p p' outs ⟨?_, ?_, fun _ => ⟨hba, hbg, ?_⟩⟩ (fun _ hx => hx) hst h).items
  · rw [hf.imu]; simp
  · rw [hf.states]; simp
  · rw [hf.att]; simp

end Safe

/-! ### Concrete cases -/

/-- Three images, each with a sample of the same time pushed before it. -/
def exServed : List (BOp ℚ ℚ) := exRun 0 (exMsg 10 0) ++ exRun 1 (exMsg 10 1) ++ exRun 2 (exMsg 10 2)

theorem ex_served : Served (exProc.b.loader.offset) (exProc.b.loader.imuPeriod) [] exServed := by
  have key : ∀ (t : ℚ) (seen : List ℚ), t ∈ seen → ∃ x ∈ seen, TimeOps.sub x exProc.b.loader.offset ≤ TimeOps.sub t exProc.b.loader.offset ∧
      TimeOps.sub (TimeOps.sub t exProc.b.loader.offset) (TimeOps.sub x exProc.b.loader.offset) ≤ exProc.b.loader.imuPeriod := by
    intro t seen h
    refine ⟨t, h, le_rfl, ?_⟩
    show _ - _ ≤ (1 / 10 : ℚ)
    rw [sub_self]; norm_num
  exact ⟨key 0 _ (by decide), key 1 _ (by decide), key 2 _ (by decide), trivial⟩

/-- C119: the hypotheses of `C119_running` and `C119_stays` hold, and the filter is running after the second image. -/
example : Fresh exProc.b ∧ Ready exProc.b ∧ GoodRun 2 exProc exServed ∧ TimeOps.tlit 0 < exProc.b.loader.imuPeriod ∧ (imuTimes exServed).Pairwise (· ≤ ·) ∧
    (∀ t ∈ imuTimes exServed, TimeOps.sub (TimeOps.sub t exProc.b.loader.offset) (TimeOps.tlit 1) < TimeOps.sub t exProc.b.loader.offset) ∧
    (exProc.run (exServed.take 6)).check (fun r => decide (r.1.b.status = .initialized)) = true := by
  refine ⟨ex_fresh, ex_ready, ?_, ?_, by decide, ?_, by decide +kernel⟩
  · refine tracker_goodRun exProc _ ex_fresh ex_ready ?_ ?_ ?_ (by decide)
    · intro op hop h; subst h; revert hop; simp [exServed, exRun]
    · intro m hm
      have : m = exMsg 10 0 ∨ m = exMsg 10 1 ∨ m = exMsg 10 2 := by simpa [exServed, exRun, featMsgs] using hm
      rcases this with rfl | rfl | rfl <;> exact ex_msgOk _ (by decide) rfl rfl
    · intro x y z h id hx _
      have : [x, y, z] = [(exMsg 10 0).ids, (exMsg 10 1).ids, (exMsg 10 2).ids] := h.eq_of_length rfl
      simp only [List.cons.injEq, and_true] at this
      obtain ⟨rfl, rfl, rfl⟩ := this
      exact hx
  · show (0 : ℚ) < 1 / 10; norm_num
  · intro t _
    show _ - (1 : ℚ) < _
    linarith

/-- C119: an image that comes without its IMU sample does end the run. -/
theorem C119_gap : (exProc.run (exOps 10)).check (fun r => decide (r.1.b.status = .initialized)) = true ∧
    (exProc.run (exOps 10 ++ [.feat (exMsg 10 3), .run exEnv])).check (fun r => decide (r.1.b.status = .needInit)) = true :=
  ⟨by decide +kernel, by decide +kernel⟩

end Backend
end Vio
