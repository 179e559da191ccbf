/-
C68, C70, C79: histories of calls of the backend.
-/
import Verif.Lemmas.AnyRun

set_option linter.unusedSectionVars false

namespace Vio
open Spec WinSpec AttSpec Update

variable {K T : Type} [Add K] [Sub K] [Mul K] [Neg K] [Div K] [Zero K] [One K] [ScalarFn K]
  [TimeOps T] [TimeCast T K]

namespace Backend

/-! ### C70 -/

/-- The window keeps to its size. -/
def Bounded (N : Nat) (b : Backend K T) : Prop := b.u.w.frm.maxWindowSize = N ∧ b.u.w.frm.frames.length ≤ max 1 N

theorem onFeat_bounded (env : Env K) (g : Vec3 K) (b b' : Backend K T) (m : FeatMsg K T) (N : Nat) (hN : max 1 N + 1 < two32) (hb : Bounded N b)
    (h : b.onFeat env g m = .ok b') : Bounded N b' ∧ (b'.status = .needInit → b'.u.w.frm.frames.length = 1) := by
  obtain ⟨b1, b2, h1, h2, h3⟩ := onFeat_eq env g b b' m h
  obtain ⟨e1, e2⟩ := insert_length b.u.w m
  have i1 : (b.setWin (b.u.w.insert m)).u.w.frm.frames.length = b.u.w.frm.frames.length + 1 := e1
  have i2 : (b.setWin (b.u.w.insert m)).u.w.frm.maxWindowSize = N := e2.trans hb.1
  have hlen := hb.2
  obtain ⟨t1, t2, t3, -, -, t6, t7⟩ := tryInit_any env g _ b1 h1 (by omega)
  obtain ⟨r1, r2, -, r4, -, r6, r7⟩ := tryUpdate_any env g b1 b2 m.ts h2 t2 (by omega)
  obtain ⟨c1, c2, -, -⟩ := cleanAtt_any _ _ h3
  unfold Bounded
  rw [c1, c2]
  have hone : b2.status = .needInit → b2.u.w.frm.frames.length = 1 := by
    intro hs
    cases hs1 : b1.status with
    | needInit => rw [r4 hs1]; exact (t6 hs1).2
    | initialized => exact r7 hs1 hs
  refine ⟨⟨by rw [r2, t3, i2], ?_⟩, hone⟩
  cases hs : b2.status with
  | needInit => have := hone hs; omega
  | initialized =>
    have := (r6 hs).2
    rw [t3, i2] at this
    omega

/-- C70, the bound: after any history, Reset included, the window holds at most max(1, configured size) frames. -/
theorem C70_bound (N : Nat) (hN : max 1 N + 1 < two32) (ops : List (BOp K T)) : ∀ (p p' : BProc K T) (outs : List (BOut K T)), Bounded N p.b →
    p.run ops = .ok (p', outs) → Bounded N p'.b := by
  induction ops with
  | nil => intro p p' outs hb h; cases h; exact hb
  | cons op ops ih =>
    intro p p' outs hb h
    rw [BProc.run] at h
    obtain ⟨⟨p1, o⟩, hs, h⟩ := Res.bind_eq_ok.1 h
    obtain ⟨⟨p2, os⟩, hr, h⟩ := Res.bind_eq_ok.1 h
    cases h
    refine ih p1 p' os ?_ hr
    cases op with
    | run env =>
      obtain ⟨⟨r, b'⟩, hb', hs⟩ := Res.bind_eq_ok.1 hs
      cases hs
      rcases runOnce_eq env p.g p.b b' r hb' with ⟨-, -, rfl⟩ | ⟨-, res, b1, h1, h2⟩
      · exact hb
      · have k := (onImu_keep _ _ _ _ _ h1).2.2.1
        have hb1 : Bounded N b1 := by unfold Bounded; rw [k]; exact hb
        rcases h2 with ⟨-, -, rfl⟩ | ⟨m, -, -, h2⟩
        · exact hb1
        · exact (onFeat_bounded env p.g b1 b' m N hN hb1 h2).1
    | imu m => cases hs; exact hb
    | feat m => cases hs; exact hb
    | runTest => cases hs; exact hb
    | publishPropagate =>
      obtain ⟨_, _, hs⟩ := Res.bind_eq_ok.1 hs
      cases hs; exact hb
    | publishUpdate =>
      obtain ⟨_, _, hs⟩ := Res.bind_eq_ok.1 hs
      cases hs; exact hb
    | reset => cases hs; exact hb

/-- C70, the other half: a `RunOnce` that handled a features message and leaves the backend uninitialised (the initialisation or the update failed) leaves exactly one frame. -/
theorem C70_one_frame (env : Env K) (g : Vec3 K) (b b' : Backend K T) (r : Bool) (m : FeatMsg K T) (hlt : b.u.w.frm.frames.length + 1 < two32)
    (hm : b.loader.popOne.out.featMeas = some m) (h : b.runOnce env g = .ok (r, b')) (hs : b'.status = .needInit) : b'.u.w.frm.frames.length = 1 := by
  rcases runOnce_eq env g b b' r h with ⟨h0, -, -⟩ | ⟨-, res, b1, h1, h2⟩
  · have := (popOne_ret b.loader).1 h0
    unfold Loader.popOne at hm
    rw [this.1, this.2] at hm
    cases hm
  · have k := (onImu_keep _ _ _ _ _ h1).2.2.1
    rcases h2 with ⟨h2, -, -⟩ | ⟨m', -, -, h2⟩
    · rw [hm] at h2; cases h2
    · obtain ⟨b2, b3, f1, f2, f3⟩ := onFeat_eq env g b1 b' m' h2
      have i1 : (b1.setWin (b1.u.w.insert m')).u.w.frm.frames.length = b.u.w.frm.frames.length + 1 := by
        have := (insert_length b1.u.w m').1
        rw [k] at this
        exact (insert_length b1.u.w m').1.trans (by rw [k])
      obtain ⟨t1, t2, t3, -, -, t6, t7⟩ := tryInit_any env g _ b2 f1 (by omega)
      obtain ⟨r1, r2, -, r4, -, r6, r7⟩ := tryUpdate_any env g b2 b3 m'.ts f2 t2 (by omega)
      obtain ⟨c1, c2, -, -⟩ := cleanAtt_any _ _ f3
      rw [c1]
      rw [c2] at hs
      cases hs1 : b2.status with
      | needInit => rw [r4 hs1]; exact (t6 hs1).2
      | initialized => exact r7 hs1 hs

/-! ### C79 -/

section Time
variable [LinearOrder T] [TimeLaws T]

/-- Newest queued state and newest attitude: no state is newer than the newest attitude, and in a running filter they are equally new. -/
structure TimeInv (b : Backend K T) : Prop where
  last : ∀ i, b.u.q.items.getLast? = some i → ∃ a, b.att.items.getLast? = some a ∧ i.ts ≤ a.ts ∧ (b.status = .initialized → i.ts = a.ts)
  ne : b.status = .initialized → b.u.q.items ≠ []

/-- Nothing older than `t` will be published. -/
def After (t : T) (b : Backend K T) : Prop :=
  (∀ i, b.u.q.items.getLast? = some i → t ≤ i.ts) ∧ ∃ a, b.att.items.getLast? = some a ∧ t ≤ a.ts

theorem times_last {l : List (PropItem K T)} {t : T} (h : (times l).getLast? = some t) : ∃ i, l.getLast? = some i ∧ i.ts = t := by
  unfold times at h
  rw [List.getLast?_map] at h
  obtain ⟨i, h1, h2⟩ := Option.map_eq_some_iff.1 h
  exact ⟨i, h1, h2⟩

theorem onImu_time (g : Vec3 K) (b b' : Backend K T) (ms : List (ImuMsg K T)) (r : Bool) (h : b.onImu g ms = .ok (r, b')) (hi : TimeInv b)
    (ho : ∀ m ∈ ms, ∀ a, b.att.items.getLast? = some a → a.ts ≤ m.ts) :
    TimeInv b' ∧ (∀ t, After t b → After t b') ∧ (∀ a ∈ b'.att.items, a ∈ b.att.items ∨ ∃ m ∈ ms, a.ts = m.ts) := by
  cases ms with
  | nil => cases h; exact ⟨hi, fun _ h => h, fun a ha => .inl ha⟩
  | cons m ms =>
    rw [onImu] at h
    have hp := propagate_items b.att g m.accel m.gyro m.ts
    have hacc : ∀ last, b.att.items.getLast? = some last → (b.att.propagate g m.accel m.gyro m.ts).1.items ≠ b.att.items := by
      intro last hl
      have hlt : TimeOps.lt m.ts last.ts = false := by
        by_contra hc
        exact absurd ((TimeLaws.lt_iff _ _).1 (by simpa using hc)) (not_lt.2 (ho m (by simp) last hl))
      obtain ⟨q, hq, -⟩ := C24_accepted b.att g m.accel m.gyro m.ts last hl hlt
      rw [hq]
      intro hc
      have := congrArg List.length hc
      simp at this
    generalize b.att.propagate g m.accel m.gyro m.ts = ar at h hp hacc
    obtain ⟨att, res⟩ := ar
    dsimp only at h hp hacc
    have hmem : ∀ a ∈ att.items, a ∈ b.att.items ∨ ∃ m' ∈ m :: ms, a.ts = m'.ts := by
      intro a ha
      rcases hp with hp | ⟨it, p1, p2, -⟩
      · rw [hp] at ha; exact .inl ha
      · rw [p1] at ha
        rcases List.mem_append.1 ha with ha | ha
        · exact .inl ha
        · rw [List.mem_singleton.1 ha]; exact .inr ⟨m, by simp, p2⟩
    have hlast : ∀ a, b.att.items.getLast? = some a → ∃ it, att.items.getLast? = some it ∧ it.ts = m.ts ∧ a.ts ≤ m.ts := by
      intro a ha
      rcases hp with hp | ⟨it, p1, p2, -⟩
      · exact absurd (by rw [hp]) (hacc a ha)
      · exact ⟨it, by rw [p1]; simp, p2, ho m (by simp) a ha⟩
    split at h
    · rename_i hs
      cases h
      refine ⟨⟨?_, fun hc => absurd (hs.symm.trans hc) (by decide)⟩, ?_, hmem⟩
      · intro i hq
        obtain ⟨a, a1, a2, -⟩ := hi.last i hq
        obtain ⟨it, l1, l2, l3⟩ := hlast a a1
        exact ⟨it, l1, by rw [l2]; exact a2.trans l3, fun hc => absurd (hs.symm.trans hc) (by decide)⟩
      · rintro t ⟨t1, a, t2, t3⟩
        obtain ⟨it, l1, l2, l3⟩ := hlast a t2
        exact ⟨t1, it, l1, by rw [l2]; exact t3.trans l3⟩
    · rename_i hs
      split at h
      · cases h
        obtain ⟨z, hz⟩ := Option.ne_none_iff_exists'.1 (mt List.getLast?_eq_none_iff.1 (hi.ne hs))
        obtain ⟨a, a1, a2, a3⟩ := hi.last z hz
        obtain ⟨it, l1, l2, l3⟩ := hlast a a1
        obtain ⟨i, hii, hit⟩ : ∃ i, (b.u.q.propagate b.u.w.frm.extrinsics.length g m.accel m.gyro m.ts).items = b.u.q.items ++ [i] ∧ i.ts = m.ts := by
          unfold PropQueue.propagate
          simp only [hz]
          exact ⟨_, rfl, rfl⟩
        refine ⟨⟨?_, fun _ => ?_⟩, ?_, hmem⟩
        · intro j hj
          dsimp only at hj
          rw [hii] at hj
          simp only [List.getLast?_concat, Option.some.injEq] at hj
          subst hj
          exact ⟨it, l1, by rw [hit, l2], fun _ => by rw [hit, l2]⟩
        · dsimp only
          rw [hii]; simp
        · rintro t ⟨t1, a', t2, t3⟩
          rw [a1] at t2
          cases t2
          refine ⟨?_, it, l1, by rw [l2]; exact t3.trans l3⟩
          intro j hj
          dsimp only at hj
          rw [hii] at hj
          simp only [List.getLast?_concat, Option.some.injEq] at hj
          subst hj
          rw [hit]; exact t3.trans l3
      · cases h

theorem onFeat_time (env : Env K) (g : Vec3 K) (b b' : Backend K T) (m : FeatMsg K T) (h : b.onFeat env g m = .ok b') (hlt : b.u.w.frm.frames.length + 1 < two32) (hi : TimeInv b) :
    TimeInv b' ∧ (∀ t, After t b → After t b') ∧ b'.att.items <:+ b.att.items := by
  obtain ⟨b1, b2, h1, h2, h3⟩ := onFeat_eq env g b b' m h
  have i1 : (b.setWin (b.u.w.insert m)).u.w.frm.frames.length = b.u.w.frm.frames.length + 1 := (insert_length b.u.w m).1
  obtain ⟨t1, t2, -, t4, t5, t6, t7⟩ := tryInit_any env g _ b1 h1 (by omega)
  obtain ⟨-, -, r3, r4, r5, r6, -⟩ := tryUpdate_any env g b1 b2 m.ts h2 t2 (by omega)
  obtain ⟨c1, c2, c3, c4⟩ := cleanAtt_any _ _ h3
  have q0 : (b.setWin (b.u.w.insert m)).u.q = b.u.q := rfl
  have a0 : (b.setWin (b.u.w.insert m)).att = b.att := rfl
  have s0 : (b.setWin (b.u.w.insert m)).status = b.status := rfl
  rw [q0] at t6 t7
  rw [a0] at t4 t5
  rw [s0] at t7
  -- after the initialisation
  have j1 : TimeInv b1 ∧ (∀ t, After t b → After t b1) := by
    cases hs : b1.status with
    | needInit =>
      have hq := (t6 hs).1
      refine ⟨⟨?_, fun hc => absurd (hs.symm.trans hc) (by decide)⟩, ?_⟩
      · intro i hh
        rw [hq] at hh
        obtain ⟨a, a1, a2, -⟩ := hi.last i hh
        exact ⟨a, t5.trans a1, a2, fun hc => absurd (hs.symm.trans hc) (by decide)⟩
      · rintro t ⟨u1, a, u2, u3⟩
        exact ⟨by rw [hq]; exact u1, a, t5.trans u2, u3⟩
    | initialized =>
      rcases t7 hs with ⟨hb, e⟩ | ⟨hb, e1, e2⟩
      · have eq : b1.u.q = b.u.q := by rw [e]; rfl
        refine ⟨⟨?_, ?_⟩, ?_⟩
        · rw [eq, t5]
          intro i hh
          obtain ⟨a, a1, a2, a3⟩ := hi.last i hh
          exact ⟨a, a1, a2, fun _ => a3 hb⟩
        · intro _; rw [eq]; exact hi.ne hb
        · rintro t ⟨u1, a, u2, u3⟩
          exact ⟨by rw [eq]; exact u1, a, t5.trans u2, u3⟩
      · -- freshly initialised: the newest state carries the newest attitude's time
        have key : ∃ i a, b1.u.q.items.getLast? = some i ∧ b.att.items.getLast? = some a ∧ i.ts = a.ts := by
          cases ha : b.att.items.getLast? with
          | none =>
            have hqn : b.u.q.items = [] := by
              by_contra hc
              obtain ⟨z, hz⟩ := Option.ne_none_iff_exists'.1 (mt List.getLast?_eq_none_iff.1 hc)
              obtain ⟨a, a1, -, -⟩ := hi.last z hz
              rw [ha] at a1; cases a1
            have hbn : b1.att.items = [] := List.getLast?_eq_none_iff.1 (t5.trans ha)
            rw [hqn, hbn] at e2
            simp only [times, List.map_nil, List.append_nil, List.map_eq_nil_iff] at e2
            exact absurd e2 e1
          | some a =>
            have hl : (times b1.u.q.items).getLast? = some a.ts := by
              rw [e2, List.getLast?_append, List.getLast?_map, t5, ha]; rfl
            obtain ⟨i, l1, l2⟩ := times_last hl
            exact ⟨i, a, l1, rfl, l2⟩
        obtain ⟨i, a, k1, k2, k3⟩ := key
        refine ⟨⟨?_, fun _ => e1⟩, ?_⟩
        · intro i' hh
          rw [k1] at hh
          cases hh
          exact ⟨a, t5.trans k2, le_of_eq k3, fun _ => k3⟩
        · rintro t ⟨u1, a', u2, u3⟩
          rw [k2] at u2
          cases u2
          refine ⟨?_, a, t5.trans k2, u3⟩
          intro i' hh
          rw [k1] at hh
          cases hh
          rw [k3]; exact u3
  -- after the update
  have j2 : TimeInv b2 ∧ (∀ t, After t b1 → After t b2) := by
    cases hs : b1.status with
    | needInit => rw [r4 hs]; exact ⟨j1.1, fun _ h => h⟩
    | initialized =>
      have e2 := r5 hs
      obtain ⟨old, o1, -⟩ := C37_reset b1.u.q m.ts b1.loader.imuPeriod
      generalize (b1.u.q.resetOrigin m.ts b1.loader.imuPeriod).1.items = kept at e2 o1
      have key : ∀ i, b2.u.q.items.getLast? = some i → ∃ i', b1.u.q.items.getLast? = some i' ∧ i'.ts = i.ts := by
        intro i hh
        have hl : (times kept).getLast? = some i.ts := by rw [← e2, times, List.getLast?_map, hh]; rfl
        obtain ⟨i', l1, l2⟩ := times_last hl
        have hne : kept ≠ [] := by rintro rfl; cases l1
        exact ⟨i', by rw [← l1]; exact (suffix_getLast? ⟨old, o1.symm⟩ hne).symm, l2⟩
      refine ⟨⟨?_, fun hs2 => (r6 hs2).1⟩, ?_⟩
      · intro i hh
        obtain ⟨i', k1, k2⟩ := key i hh
        obtain ⟨a, a1, a2, a3⟩ := j1.1.last i' k1
        exact ⟨a, by rw [r3]; exact a1, by rw [← k2]; exact a2, fun _ => by rw [← k2]; exact a3 hs⟩
      · rintro t ⟨u1, a, u2, u3⟩
        refine ⟨?_, a, by rw [r3]; exact u2, u3⟩
        intro i hh
        obtain ⟨i', k1, k2⟩ := key i hh
        rw [← k2]; exact u1 i' k1
  refine ⟨⟨?_, ?_⟩, ?_, ?_⟩
  · rw [c1, c2, c4]; exact j2.1.last
  · rw [c1, c2]; exact j2.1.ne
  · intro t ht
    have := j2.2 t (j1.2 t ht)
    unfold After
    rw [c1, c4]; exact this
  · rw [r3] at c3; exact c3.trans t4

/-- Raw times of the IMU samples pushed by a history. -/
def imuTimes : List (BOp K T) → List T
  | [] => []
  | .imu m :: ops => m.ts :: imuTimes ops
  | _ :: ops => imuTimes ops

/-- Times reported by the successful `PublishPropagateState` calls of a history. -/
def pubTimes : List (BOp K T) → List (BOut K T) → List T
  | .publishPropagate :: ops, .state (some s) :: outs => s.ts :: pubTimes ops outs
  | _ :: ops, _ :: outs => pubTimes ops outs
  | _, _ => []

/-- Loader and attitude queue are in time order and not newer than the samples still to come. -/
structure OrdInv (fut : List T) (b : Backend K T) : Prop where
  sorted : b.loader.imuMeas.Pairwise (fun x y => x.ts ≤ y.ts)
  att : ∀ a ∈ b.att.items, ∀ m ∈ b.loader.imuMeas, a.ts ≤ m.ts
  fut : TimeOps.isNaN b.loader.offset = false → ∀ t ∈ fut, (∀ m ∈ b.loader.imuMeas, m.ts ≤ TimeOps.sub t b.loader.offset) ∧ ∀ a ∈ b.att.items, a.ts ≤ TimeOps.sub t b.loader.offset
  start : TimeOps.isNaN b.loader.offset = true → b.loader.imuMeas = [] ∧ b.att.items = []

theorem popOne_imu (l : Loader K T) : l.popOne.out.imuMeas ++ l.popOne.loader.imuMeas = l.imuMeas ∧ l.popOne.loader.offset = l.offset := by
  unfold Loader.popOne
  split
  · rename_i h1 h2
    split
    · split
      · exact ⟨by simp [h1], rfl⟩
      · exact ⟨by simp, rfl⟩
    · exact ⟨by simp [h1], rfl⟩
  · rename_i h1 h2; exact ⟨by simp [h1], rfl⟩
  · exact ⟨by simp, rfl⟩
  · exact ⟨by simp [Combined.cleared], rfl⟩

theorem OrdInv.pop {fut : List T} {b : Backend K T} (h : OrdInv fut b) : OrdInv fut { b with loader := b.loader.popOne.loader } := by
  obtain ⟨p1, p2⟩ := popOne_imu b.loader
  have hm : ∀ m ∈ b.loader.popOne.loader.imuMeas, m ∈ b.loader.imuMeas := by intro m hm; rw [← p1]; simp [hm]
  refine ⟨?_, fun a ha m hmm => h.att a ha m (hm m hmm), ?_, ?_⟩
  · have := h.sorted
    rw [← p1] at this
    exact (List.pairwise_append.1 this).2.1
  · dsimp only
    rw [p2]
    exact fun hn t ht => ⟨fun m hmm => (h.fut hn t ht).1 m (hm m hmm), (h.fut hn t ht).2⟩
  · dsimp only
    rw [p2]
    intro hn
    obtain ⟨s1, s2⟩ := h.start hn
    rw [s1] at p1
    exact ⟨(List.append_eq_nil_iff.1 p1).2, s2⟩

/-- The order is kept by `RunOnce`. -/
theorem runOnce_time (env : Env K) (g : Vec3 K) (N : Nat) (hN : max 1 N + 1 < two32) (fut : List T) (b b' : Backend K T) (r : Bool) (hb : Bounded N b) (ht : TimeInv b) (ho : OrdInv fut b)
    (hb' : b.runOnce env g = .ok (r, b')) : TimeInv b' ∧ OrdInv fut b' ∧ ∀ t, After t b → After t b' := by
  have hpop := ho.pop
  obtain ⟨q1, q2⟩ := popOne_imu b.loader
  have hti : TimeInv { b with loader := b.loader.popOne.loader } := ⟨ht.last, ht.ne⟩
  have hload := runOnce_loader _ _ _ _ _ hb'
  rcases runOnce_eq env g b b' r hb' with ⟨-, -, rfl⟩ | ⟨-, res, b1, h1, h2⟩
  · exact ⟨hti, hpop, fun _ h => h⟩
  · have k := onImu_keep _ _ _ _ _ h1
    obtain ⟨i1, i2, i3⟩ := onImu_time g _ b1 _ res h1 hti (fun m hm a ha => ho.att a (List.mem_of_getLast? ha) m (by rw [← q1]; simp [hm]))
    have ord1 : OrdInv fut b1 := by
      have hl : b1.loader = b.loader.popOne.loader := k.1
      refine ⟨by rw [hl]; exact hpop.sorted, ?_, ?_, ?_⟩
      · intro a ha m hm
        rw [hl] at hm
        rcases i3 a ha with ha | ⟨m', hm', e⟩
        · exact hpop.att a ha m hm
        · rw [e]
          have := ho.sorted
          rw [← q1] at this
          exact (List.pairwise_append.1 this).2.2 m' hm' m hm
      · rw [hl, q2]
        intro hnn t htt
        refine ⟨fun m hm => (ho.fut hnn t htt).1 m (by rw [← q1]; simp [hm]), fun a ha => ?_⟩
        rcases i3 a ha with ha | ⟨m', hm', e⟩
        · exact (ho.fut hnn t htt).2 a ha
        · rw [e]; exact (ho.fut hnn t htt).1 m' (by rw [← q1]; simp [hm'])
      · rw [hl, q2]
        intro hnn
        obtain ⟨s1, s2⟩ := ho.start hnn
        rw [s1] at q1
        obtain ⟨w1, w2⟩ := List.append_eq_nil_iff.1 q1
        refine ⟨w2, ?_⟩
        rw [List.eq_nil_iff_forall_not_mem]
        intro a ha
        rcases i3 a ha with ha | ⟨m', hm', e⟩
        · replace ha : a ∈ b.att.items := ha
          rw [s2] at ha; cases ha
        · rw [w1] at hm'; cases hm'
    rcases h2 with ⟨-, -, rfl⟩ | ⟨m, -, -, h2⟩
    · exact ⟨i1, ord1, fun t h => i2 t h⟩
    · have kw : b1.u.w = b.u.w := k.2.2.1
      obtain ⟨f1, f2, f3⟩ := onFeat_time env g b1 b' m h2 (by rw [kw]; have := hb.2; omega) i1
      have hl' := (onFeat_keep _ _ _ _ _ h2).1
      refine ⟨f1, ⟨by rw [hl']; exact ord1.sorted, ?_, ?_, ?_⟩, fun t h => f2 t (i2 t h)⟩
      · rw [hl']; exact fun a ha => ord1.att a (f3.subset ha)
      · rw [hl']; exact fun hnn t htt => ⟨(ord1.fut hnn t htt).1, fun a ha => (ord1.fut hnn t htt).2 a (f3.subset ha)⟩
      · rw [hl']
        intro hnn
        obtain ⟨s1, s2⟩ := ord1.start hnn
        rw [s2] at f3
        exact ⟨s1, List.suffix_nil.1 f3⟩

/-- The order is kept by a push of the next sample. -/
theorem OrdInv.pushImu {fut : List T} {b : Backend K T} (m : ImuMsg K T) (ho : OrdInv (m.ts :: fut) b) (hp1 : ∀ t ∈ fut, m.ts ≤ t) (hn : TimeOps.isNaN m.ts = false) (st : LoaderStatics T) :
    OrdInv fut { b with loader := (b.loader.pushImu st m).loader } := by
  have hoff : TimeOps.isNaN (if TimeOps.isNaN b.loader.offset then m.ts else b.loader.offset) = false := by
    by_cases hc : TimeOps.isNaN b.loader.offset = true
    · rw [if_pos hc]; exact hn
    · rw [if_neg hc]; simpa using hc
  have old : ∀ t ∈ m.ts :: fut, (∀ x ∈ b.loader.imuMeas, x.ts ≤ TimeOps.sub t (if TimeOps.isNaN b.loader.offset then m.ts else b.loader.offset)) ∧
      ∀ a ∈ b.att.items, a.ts ≤ TimeOps.sub t (if TimeOps.isNaN b.loader.offset then m.ts else b.loader.offset) := by
    intro t htt
    by_cases hc : TimeOps.isNaN b.loader.offset = true
    · obtain ⟨s1, s2⟩ := ho.start hc
      rw [s1, s2]; simp
    · rw [if_neg hc]; exact ho.fut (by simpa using hc) t htt
  unfold Loader.pushImu
  generalize hof : (if TimeOps.isNaN b.loader.offset then m.ts else b.loader.offset) = off at hoff old
  dsimp only
  generalize TimeOps.lt (st.lastImu.getD (TimeOps.sub (TimeOps.sub m.ts off) (TimeOps.tlit 1))) (TimeOps.sub m.ts off) = acc
  have memq : ∀ x ∈ (if acc = true then b.loader.imuMeas ++ [{ m with ts := TimeOps.sub m.ts off }] else b.loader.imuMeas),
      x ∈ b.loader.imuMeas ∨ x.ts = TimeOps.sub m.ts off := by
    intro x hx
    cases acc with
    | true =>
      rcases List.mem_append.1 hx with hx | hx
      · exact .inl hx
      · rw [List.mem_singleton.1 hx]; exact .inr rfl
    | false => exact .inl hx
  refine ⟨?_, ?_, ?_, ?_⟩
  · dsimp only
    cases acc with
    | true =>
      refine List.pairwise_append.2 ⟨ho.sorted, List.pairwise_singleton _ _, ?_⟩
      intro x hx y hy
      rw [List.mem_singleton.1 hy]
      exact (old m.ts (by simp)).1 x hx
    | false => exact ho.sorted
  · intro a ha x hx
    rcases memq x hx with hx | hx
    · exact ho.att a ha x hx
    · rw [hx]; exact (old m.ts (by simp)).2 a ha
  · intro _ t htt
    refine ⟨fun x hx => ?_, fun a ha => (old t (by simp [htt])).2 a ha⟩
    rcases memq x hx with hx | hx
    · exact (old t (by simp [htt])).1 x hx
    · rw [hx]; exact TimeLaws.sub_le_sub_left _ _ _ (hp1 t htt)
  · intro hc
    exact absurd (hoff.symm.trans hc) (by simp)

/-- The order is kept by a push of an image. -/
theorem OrdInv.pushFeatures {fut : List T} {b : Backend K T} (m : FeatMsg K T) (ho : OrdInv fut b) (st : LoaderStatics T) : OrdInv fut { b with loader := (b.loader.pushFeatures st m).loader } := by
  have e : (b.loader.pushFeatures st m).loader.imuMeas = b.loader.imuMeas ∧
      (TimeOps.isNaN b.loader.offset = false → (b.loader.pushFeatures st m).loader.offset = b.loader.offset) := by
    unfold Loader.pushFeatures
    constructor
    · split <;> rfl
    · intro hc
      split
      · rfl
      · simp [hc]
  refine ⟨by dsimp only; rw [e.1]; exact ho.sorted, ?_, ?_, ?_⟩
  · dsimp only; rw [e.1]; exact ho.att
  · dsimp only
    rw [e.1]
    intro _ t htt
    by_cases hc : TimeOps.isNaN b.loader.offset = true
    · obtain ⟨s1, s2⟩ := ho.start hc
      rw [s1, s2]; simp
    · rw [e.2 (by simpa using hc)]
      exact ho.fut (by simpa using hc) t htt
  · dsimp only
    rw [e.1]
    intro hc
    by_cases hc2 : TimeOps.isNaN b.loader.offset = true
    · exact ho.start hc2
    · rw [e.2 (by simpa using hc2)] at hc
      exact absurd hc hc2

/-- C79.  IMU samples pushed in time order: the times reported by successive successful `PublishPropagateState` calls never decrease, whatever else is called (Reset included). -/
theorem C79_published_time_invariant (N : Nat) (hN : max 1 N + 1 < two32) (ops : List (BOp K T)) : ∀ (p p' : BProc K T) (outs : List (BOut K T)), Bounded N p.b → TimeInv p.b →
    OrdInv (imuTimes ops) p.b → (imuTimes ops).Pairwise (· ≤ ·) → (∀ t ∈ imuTimes ops, TimeOps.isNaN t = false) → p.run ops = .ok (p', outs) →
    (pubTimes ops outs).Pairwise (· ≤ ·) ∧ ∀ t, After t p.b → ∀ s ∈ pubTimes ops outs, t ≤ s := by
  induction ops with
  | nil => intro p p' outs _ _ _ _ _ h; cases h; exact ⟨.nil, by simp [pubTimes]⟩
  | cons op ops ih =>
    intro p p' outs hb ht ho hp hn h
    rw [BProc.run] at h
    obtain ⟨⟨p1, o⟩, hs, h⟩ := Res.bind_eq_ok.1 h
    obtain ⟨⟨p2, os⟩, hr, h⟩ := Res.bind_eq_ok.1 h
    cases h
    have hb1 : Bounded N p1.b := C70_bound N hN [op] p p1 [o] hb (by rw [BProc.run, hs]; rfl)
    cases op with
    | run env =>
      have hpub : pubTimes (.run env :: ops) (o :: os) = pubTimes ops os := by cases o <;> rfl
      rw [hpub]
      obtain ⟨⟨r, b'⟩, hb', hs⟩ := Res.bind_eq_ok.1 hs
      cases hs
      have step := runOnce_time env p.g N hN _ p.b b' r hb ht ho hb'
      obtain ⟨g1, g2⟩ := ih _ p' os hb1 step.1 step.2.1 hp hn hr
      exact ⟨g1, fun t htt => g2 t (step.2.2 t htt)⟩
    | imu m =>
      have hpub : pubTimes (.imu m :: ops) (o :: os) = pubTimes ops os := by cases o <;> rfl
      rw [hpub]
      cases hs
      obtain ⟨hp1, hp2⟩ := List.pairwise_cons.1 hp
      have ord1 := OrdInv.pushImu m ho hp1 (hn m.ts (by simp [imuTimes])) p.statics
      obtain ⟨g1, g2⟩ := ih _ p' os hb1 ⟨ht.last, ht.ne⟩ ord1 hp2 (fun t htt => hn t (by simp [imuTimes, htt])) hr
      exact ⟨g1, fun t htt => g2 t htt⟩
    | feat m =>
      have hpub : pubTimes (.feat m :: ops) (o :: os) = pubTimes ops os := by cases o <;> rfl
      rw [hpub]
      cases hs
      have ord1 := ho.pushFeatures m p.statics
      obtain ⟨g1, g2⟩ := ih _ p' os hb1 ⟨ht.last, ht.ne⟩ ord1 hp hn hr
      exact ⟨g1, fun t htt => g2 t htt⟩
    | runTest =>
      have hpub : pubTimes (.runTest :: ops) (o :: os) = pubTimes ops os := by cases o <;> rfl
      rw [hpub]
      cases hs
      obtain ⟨g1, g2⟩ := ih _ p' os hb1 ⟨ht.last, ht.ne⟩ ho.pop hp hn hr
      exact ⟨g1, fun t htt => g2 t htt⟩
    | publishPropagate =>
      obtain ⟨s, hpb, hs⟩ := Res.bind_eq_ok.1 hs
      cases hs
      obtain ⟨g1, g2⟩ := ih _ p' os hb1 ht ho hp hn hr
      cases s with
      | none => exact ⟨g1, g2⟩
      | some s =>
        have hlast : ∃ i, p.b.u.q.items.getLast? = some i ∧ i.ts = s.ts := by
          unfold publishPropagate at hpb
          split at hpb
          · cases hpb
          · obtain ⟨i, hi, hpb⟩ := Res.bind_eq_ok.1 hpb
            cases hpb
            refine ⟨i, ?_, rfl⟩
            unfold back at hi
            split at hi
            · rename_i hh; cases hi; exact hh
            · cases hi
        obtain ⟨i, l1, l2⟩ := hlast
        obtain ⟨a, a1, a2, -⟩ := ht.last i l1
        have haft : After s.ts p.b := by
          refine ⟨?_, a, a1, by rw [← l2]; exact a2⟩
          intro j hj
          rw [l1] at hj
          cases hj
          exact le_of_eq l2.symm
        show (s.ts :: pubTimes ops os).Pairwise (· ≤ ·) ∧ ∀ t, After t p.b → ∀ x ∈ s.ts :: pubTimes ops os, t ≤ x
        refine ⟨List.pairwise_cons.2 ⟨g2 s.ts haft, g1⟩, ?_⟩
        intro t htt x hx
        rcases List.mem_cons.1 hx with rfl | hx
        · rw [← l2]; exact htt.1 i l1
        · exact g2 t htt x hx
    | publishUpdate =>
      have hpub : pubTimes (.publishUpdate :: ops) (o :: os) = pubTimes ops os := by cases o <;> rfl
      rw [hpub]
      obtain ⟨_, _, hs⟩ := Res.bind_eq_ok.1 hs
      cases hs
      exact ih _ p' os hb1 ht ho hp hn hr
    | reset =>
      have hpub : pubTimes (.reset :: ops) (o :: os) = pubTimes ops os := by cases o <;> rfl
      rw [hpub]
      cases hs
      obtain ⟨g1, g2⟩ := ih _ p' os hb1 ⟨fun i hi => by
        obtain ⟨a, a1, a2, -⟩ := ht.last i hi
        exact ⟨a, a1, a2, (nomatch ·)⟩, (nomatch ·)⟩ ⟨ho.sorted, ho.att, ho.fut, ho.start⟩ hp hn hr
      exact ⟨g1, fun t htt => g2 t htt⟩

/-- A configured backend that has not been used yet. -/
structure Fresh (b : Backend K T) : Prop where
  status : b.status = .needInit
  frames : b.u.w.frm.frames = []
  feats : b.u.w.feat.map = []
  states : b.u.q.items = []
  att : b.att.items = []
  imu : b.loader.imuMeas = []
  feat : b.loader.featMeas = []

/-- C79 for a fresh backend. -/
theorem C79_published_time (p p' : BProc K T) (ops : List (BOp K T)) (outs : List (BOut K T)) (hf : Fresh p.b) (hN : max 1 p.b.u.w.frm.maxWindowSize + 1 < two32)
    (ho : (imuTimes ops).Pairwise (· ≤ ·)) (hn : ∀ t ∈ imuTimes ops, TimeOps.isNaN t = false) (h : p.run ops = .ok (p', outs)) : (pubTimes ops outs).Pairwise (· ≤ ·) := by
  refine (C79_published_time_invariant _ hN ops p p' outs ⟨rfl, by rw [hf.frames]; simp⟩ ⟨?_, ?_⟩ ⟨?_, ?_, ?_, ?_⟩ ho hn h).1
  · rw [hf.states]; simp
  · rw [hf.status]; exact (nomatch ·)
  · rw [hf.imu]; exact .nil
  · rw [hf.att]; simp
  · rw [hf.att, hf.imu]; simp
  · exact fun _ => ⟨hf.imu, hf.att⟩

end Time

/-! ### C68 -/

/-- A features message as the tracker should send it: distinct ids, as many observations as ids, each by at least one camera and by known cameras only. -/
structure MsgOk (nc : Nat) (m : FeatMsg K T) : Prop where
  nodup : m.ids.Nodup
  len : m.ids.length = m.observes.length
  obs : GoodObs nc m

/-- No reuse of a lost id: an id that some frame of the window carries is carried by its newest frame. -/
def TrackOk (w : Win K T) (m : FeatMsg K T) : Prop :=
  ∀ id ∈ m.ids, (∃ f ∈ w.frm.frames, id ∈ f.features.map (·.1)) → ∃ f, w.frm.frames.getLast? = some f ∧ id ∈ f.features.map (·.1)

/-- What C68 asks of a call. -/
def CallOk (nc : Nat) (p : BProc K T) : BOp K T → Prop
  | .run _ => ∀ m, p.b.loader.popOne.out.featMeas = some m → MsgOk nc m ∧ TrackOk p.b.u.w m ∧ ∀ f, p.b.u.w.frm.frames.getLast? = some f → f.id + 2 < two32
  | .reset => False
  | _ => True

/-- Every call of a history meets `CallOk` in the state it is made in. -/
def GoodRun (nc : Nat) : BProc K T → List (BOp K T) → Prop
  | _, [] => True
  | p, op :: ops => CallOk nc p op ∧ ∀ p' o, p.step op = .ok (p', o) → GoodRun nc p' ops

theorem frameOf_keys {l : Log K T} {w : Win K T} (hr : Rel l w) (i : Nat) (fr : Frame K T) (m : FeatMsg K T) (h1 : w.frm.frames[i]? = some fr) (h2 : l.msgs[i]? = some m) (id : Nat) :
    id ∈ fr.features.map (·.1) ↔ id ∈ m.ids := by
  have hl := (hr.frames i fr m h1 h2).link id
  have hm := List.mem_of_getElem? h2
  have key : id ∈ fr.features.map (·.1) ↔ fr.features.lookup id ≠ none := by
    rw [Ne, List.lookup_eq_none_iff]
    simp only [List.mem_map, not_forall]
    constructor
    · rintro ⟨e, he, rfl⟩; exact ⟨e, he, by simp⟩
    · rintro ⟨e, he, h⟩; exact ⟨e, he, by simpa using (by simpa using h : id = e.1).symm⟩
  rw [key, hl]
  constructor
  · intro h
    by_contra hc
    apply h
    rw [if_neg]
    intro hs
    obtain ⟨o, ho⟩ := Option.isSome_iff_exists.1 hs
    exact hc (report_some_mem ho).1
  · intro h
    have hs := report_of_mem (hr.good m hm) h
    rw [if_pos hs]
    intro hc
    have := hr.untracked id hc m hm
    rw [this] at hs
    cases hs

theorem goodMsg_of_track {l : Log K T} {w : Win K T} (hr : Rel l w) (nc : Nat) (m : FeatMsg K T) (hm : MsgOk nc m) (ht : TrackOk w m) : GoodMsg l m := by
  refine ⟨hm.nodup, hm.len, fun o ho => (hm.obs o ho).1, ?_⟩
  rintro id hid ⟨m', hm', hid'⟩
  obtain ⟨i, hi⟩ := List.getElem?_of_mem hm'
  have hlt : i < w.frm.frames.length := by rw [hr.len]; exact (List.getElem?_eq_some_iff.1 hi).1
  obtain ⟨f, hf⟩ : ∃ f, w.frm.frames[i]? = some f := ⟨_, List.getElem?_eq_getElem hlt⟩
  obtain ⟨fl, h1, h2⟩ := ht id hid ⟨f, List.mem_of_getElem? hf, (frameOf_keys hr i f m' hf hi id).2 hid'⟩
  rw [List.getLast?_eq_getElem?] at h1
  have hlt2 : w.frm.frames.length - 1 < l.msgs.length := by rw [← hr.len]; omega
  obtain ⟨ml, hml⟩ : ∃ ml, l.msgs[w.frm.frames.length - 1]? = some ml := ⟨_, List.getElem?_eq_getElem hlt2⟩
  refine ⟨ml, ?_, (frameOf_keys hr _ fl ml h1 hml id).1 h2⟩
  rw [List.getLast?_eq_getElem?, ← hr.len]; exact hml

section Safe
variable [LinearOrder T] [TimeLaws T] [CastLaws T K]

/-- Parameters for which C68 is proved: pointers mounted, a period that is not negative, and matrix sizes within 32 bits. -/
structure Ready (b : Backend K T) : Prop where
  mounted : b.mounted = true
  period : TimeOps.tlit 0 ≤ b.loader.imuPeriod
  half : TimeOps.mul b.loader.imuPeriod (TimeOps.tlit (55/100)) ≤ b.loader.imuPeriod
  fits : Fits b.u.w.frm.extrinsics.length (max 1 b.u.w.frm.maxWindowSize + 1) b.maxUsed

theorem fresh_stable (b : Backend K T) (h : Fresh b) (hr : Ready b) : Stable False b.u.w.frm.extrinsics.length b.u.w.frm.maxWindowSize b.maxUsed Log.empty b := by
  refine ⟨⟨hr.mounted, rfl, rfl, rfl, rel_empty _ h.frames h.feats, ⟨by rw [h.frames]; simp, by rw [h.frames]; simp⟩, ?_, le_rfl, by rw [h.att]; exact .nil⟩, ?_, ?_, ?_⟩
  · intro m hm; cases hm
  · show 0 ≤ _; omega
  · intro _; exact ⟨by show 0 ≤ 1; omega, h.states⟩
  · intro hc; exact absurd (h.status.symm.trans hc) (by decide)

theorem pop_period (l : Loader K T) : l.popOne.loader.imuPeriod = l.imuPeriod := by
  unfold Loader.popOne
  split
  · split
    · split <;> rfl
    · rfl
  · rfl
  · rfl
  · rfl

theorem push_period (s : LoaderStatics T) (l : Loader K T) (m : FeatMsg K T) : (l.pushFeatures s m).loader.imuPeriod = l.imuPeriod := by
  unfold Loader.pushFeatures
  split <;> rfl

/-- What `Stable` needs of a call other than `RunOnce`: only the loader changes. -/
theorem stable_loader {nc N U : Nat} {l : Log K T} {b : Backend K T} (h : Stable False nc N U l b) (ld : Loader K T) : Stable False nc N U l { b with loader := ld } :=
  ⟨⟨h.mounted, h.ext, h.size, h.used, h.rel, h.addr, h.obs, h.base, h.sorted⟩, h.len, h.idle, h.live⟩

theorem publish_ok (b : Backend K T) : (∃ s, b.publishPropagate = .ok s) ∧ ∃ s, b.publishUpdate = .ok s := by
  unfold publishPropagate publishUpdate
  cases h : b.u.q.items with
  | nil => exact ⟨⟨_, rfl⟩, ⟨_, rfl⟩⟩
  | cons i is =>
    obtain ⟨z, hz⟩ := Option.ne_none_iff_exists'.1 (mt List.getLast?_eq_none_iff.1 (List.cons_ne_nil i is))
    refine ⟨?_, ⟨_, rfl⟩⟩
    simp only [List.isEmpty_cons, Bool.false_eq_true, if_false, back, hz]
    exact ⟨_, rfl⟩

/-- With no frame in the window the first frame id may be taken to be 1. -/
theorem stable_base {nc N U : Nat} {l : Log K T} {b : Backend K T} (h : Stable False nc N U l b) : ∃ l', Stable False nc N U l' b ∧ (l'.msgs = [] → l'.base = 1) := by
  by_cases he : l.msgs = []
  · refine ⟨Log.empty, ⟨⟨h.mounted, h.ext, h.size, h.used, ?_, h.addr, ?_, le_rfl, h.sorted⟩, ?_, ?_, ?_⟩, fun _ => rfl⟩
    · have hl := h.rel.len
      rw [he] at hl
      refine ⟨h.rel.wf, by show 1 + 0 < two32; decide, ?_, ?_, ?_, hl, ?_⟩
      · intro m hm; cases hm
      · intro id r hr
        obtain ⟨hne, hlo, hhi, -⟩ := h.rel.tracks id r hr
        rw [he, List.length_nil] at hhi
        have := List.length_pos_iff.2 hne
        omega
      · intro _ _ m hm; cases hm
      · intro i fr m _ hm; cases hm
    · intro m hm; cases hm
    · show 0 ≤ _; omega
    · intro hs; exact ⟨by show 0 ≤ 1; omega, (h.idle hs).2⟩
    · intro hs
      have := (h.live hs).1
      rw [he, List.length_nil] at this
      omega
  · exact ⟨l, h, fun hc => absurd hc he⟩

/-- A features message that may be handled fits the window. -/
theorem callOk_rel {nc : Nat} {l : Log K T} {p : BProc K T} (h : Rel l p.b.u.w) (hb1 : l.msgs = [] → l.base = 1) (env : Env K) (hc : CallOk nc p (.run env)) :
    ∀ m, p.b.loader.popOne.out.featMeas = some m → GoodMsg l m ∧ GoodObs nc m ∧ l.base + l.msgs.length + 1 < two32 := by
  intro m hm
  obtain ⟨c1, c2, c3⟩ := hc m hm
  refine ⟨goodMsg_of_track h nc m c1 c2, c1.obs, ?_⟩
  rcases List.eq_nil_or_concat p.b.u.w.frm.frames with h0 | ⟨fs, f, hf⟩
  · have hl := h.len
    rw [h0] at hl
    have := h.lt
    by_contra hcon
    simp only [List.length_nil] at hl
    have e := hb1 (List.eq_nil_of_length_eq_zero hl.symm)
    rw [e, ← hl] at hcon
    exact hcon (by decide)
  · rw [List.concat_eq_append] at hf
    have e1 := c3 f (by rw [hf]; simp)
    have hl := h.len
    rw [hf, List.length_append, List.length_singleton] at hl
    obtain ⟨ml, hml⟩ : ∃ ml, l.msgs[fs.length]? = some ml := ⟨_, List.getElem?_eq_getElem (by omega)⟩
    have := (h.frames fs.length f ml (by rw [hf]; simp) hml).id_eq
    omega

theorem callOk_msg {nc N U : Nat} {l : Log K T} {p : BProc K T} (h : Stable False nc N U l p.b) (hb1 : l.msgs = [] → l.base = 1) (env : Env K) (hc : CallOk nc p (.run env)) :
    ∀ m, p.b.loader.popOne.out.featMeas = some m → GoodMsg l m ∧ GoodObs nc m ∧ l.base + l.msgs.length + 1 < two32 :=
  callOk_rel h.rel hb1 env hc

/-- C68 for a state in mid-history. -/
theorem safe_run (nc N U : Nat) (hfit : Fits nc (max 1 N + 1) U) (ops : List (BOp K T)) : ∀ (p : BProc K T) (l : Log K T), Stable False nc N U l p.b →
    TimeOps.tlit 0 ≤ p.b.loader.imuPeriod → TimeOps.mul p.b.loader.imuPeriod (TimeOps.tlit (55/100)) ≤ p.b.loader.imuPeriod → GoodRun nc p ops →
    ∃ p' outs, p.run ops = .ok (p', outs) ∧ ∃ l', Stable False nc N U l' p'.b := by
  induction ops with
  | nil => intro p l h _ _ _; exact ⟨p, [], rfl, l, h⟩
  | cons op ops ih =>
    intro p l h h0 h1 ⟨hc, hg⟩
    have fin : ∀ p1 o l1, p.step op = .ok (p1, o) → Stable False nc N U l1 p1.b → p1.b.loader.imuPeriod = p.b.loader.imuPeriod →
        ∃ p' outs, p.run (op :: ops) = .ok (p', outs) ∧ ∃ l', Stable False nc N U l' p'.b := by
      intro p1 o l1 e hs hp
      obtain ⟨p', outs, r1, r2⟩ := ih p1 l1 hs (by rw [hp]; exact h0) (by rw [hp]; exact h1) (hg p1 o e)
      refine ⟨p', o :: outs, ?_, r2⟩
      rw [BProc.run, e, Res.bind_ok]
      dsimp only
      rw [r1, Res.bind_ok]
    cases op with
    | imu m => exact fin _ _ l rfl (stable_loader h _) rfl
    | feat m => exact fin _ _ l rfl (stable_loader h _) (push_period _ _ _)
    | run env =>
      obtain ⟨l, h, hb1⟩ := stable_base h
      have hpop := callOk_msg h hb1 env hc
      obtain ⟨r, b', l', e1, e2, -⟩ := runOnce_ok False env p.g h hfit h0 h1 hpop (by simp)
      refine fin { p with b := b' } (.ret r) l' ?_ e2 ?_
      · rw [BProc.step, e1, Res.bind_ok]
      · show b'.loader.imuPeriod = _
        rw [runOnce_loader _ _ _ _ _ e1, pop_period]
    | runTest => exact fin _ _ l rfl (stable_loader h _) (pop_period _)
    | publishPropagate =>
      obtain ⟨s, hs⟩ := (publish_ok p.b).1
      exact fin p (.state s) l (by rw [BProc.step, hs, Res.bind_ok]) h rfl
    | publishUpdate =>
      obtain ⟨s, hs⟩ := (publish_ok p.b).2
      exact fin p (.state s) l (by rw [BProc.step, hs, Res.bind_ok]) h rfl
    | reset => exact hc.elim

/-- C68, partial.  A configured backend never meets undefined behaviour in a well-formed history, apart from the read through a reference to a popped queue slot
that `PopOneMessage` makes (see `C68_freed_read`), which the model of `RunOnce` does not count.  Times are not NaN. -/
theorem C68_no_ub_partial (p : BProc K T) (ops : List (BOp K T)) (hf : Fresh p.b) (hr : Ready p.b) (hg : GoodRun p.b.u.w.frm.extrinsics.length p ops) :
    ∃ p' outs, p.run ops = .ok (p', outs) := by
  obtain ⟨p', outs, h, -⟩ := safe_run _ _ _ hr.fits ops p Log.empty (fresh_stable p.b hf hr) hr.period hr.half hg
  exact ⟨p', outs, h⟩

/-- The features messages pushed in a history. -/
def featMsgs : List (BOp K T) → List (FeatMsg K T)
  | [] => []
  | .feat m :: ops => m :: featMsgs ops
  | _ :: ops => featMsgs ops

/-- A tracker that never reuses a lost id: an id seen in two messages is seen in all messages between. -/
def Continuous (h : List (List Nat)) : Prop := ∀ x y z, [x, y, z].Sublist h → ∀ id ∈ x, id ∈ z → id ∈ y

theorem pop_feat (l : Loader K T) : l.popOne.out.featMeas.toList ++ l.popOne.loader.featMeas = l.featMeas := by
  unfold Loader.popOne
  split
  · next h2 =>
    split
    · split <;> exact h2.symm
    · rfl
  · rfl
  · next h2 => exact h2.symm
  · rfl

/-- What holds before the remaining calls `ops` of a tracker's history: `tot` lists the ids of all its messages, `nc` is the number of cameras. -/
structure Track (nc : Nat) (tot : List (List Nat)) (l : Log K T) (p : BProc K T) (ops : List (BOp K T)) : Prop where
  sub : (((l.msgs ++ p.b.loader.featMeas).map (·.ids)) ++ (featMsgs ops).map (·.ids)).Sublist tot
  count : l.base + l.msgs.length + p.b.loader.featMeas.length + (featMsgs ops).length ≤ tot.length + 1
  queue : ∀ m ∈ p.b.loader.featMeas, MsgOk nc m
  rest : ∀ m ∈ featMsgs ops, MsgOk nc m

theorem track_rel {nc : Nat} {tot : List (List Nat)} (hc : Continuous tot) (ht : tot.length + 1 < two32) {l : Log K T} {p : BProc K T} {ops : List (BOp K T)}
    (h : Rel l p.b.u.w) (htr : Track nc tot l p ops) (env : Env K) : CallOk nc p (.run env) := by
  intro m hm
  have hq := pop_feat p.b.loader
  rw [hm, Option.toList_some, List.singleton_append] at hq
  have hlen : p.b.loader.featMeas.length = p.b.loader.popOne.loader.featMeas.length + 1 := by rw [← hq]; simp
  have hcount := htr.count
  refine ⟨htr.queue m (by rw [← hq]; simp), ?_, ?_⟩
  · rintro id hid ⟨f, hf, hidf⟩
    obtain ⟨i, hi⟩ := List.getElem?_of_mem hf
    have hlt : i < l.msgs.length := by rw [← h.len]; exact (List.getElem?_eq_some_iff.1 hi).1
    obtain ⟨m', hm'⟩ : ∃ m', l.msgs[i]? = some m' := ⟨_, List.getElem?_eq_getElem hlt⟩
    have hid' := (frameOf_keys h i f m' hi hm' id).1 hidf
    have hlt2 : l.msgs.length - 1 < l.msgs.length := by omega
    obtain ⟨ml, hml⟩ : ∃ ml, l.msgs[l.msgs.length - 1]? = some ml := ⟨_, List.getElem?_eq_getElem hlt2⟩
    obtain ⟨fl, hfl⟩ : ∃ fl, p.b.u.w.frm.frames[l.msgs.length - 1]? = some fl := ⟨_, List.getElem?_eq_getElem (by rw [h.len]; exact hlt2)⟩
    refine ⟨fl, by rw [List.getLast?_eq_getElem?, h.len]; exact hfl, (frameOf_keys h _ fl ml hfl hml id).2 ?_⟩
    rcases Nat.lt_or_ge i (l.msgs.length - 1) with hlt3 | hge
    · refine hc m'.ids ml.ids m.ids ?_ id hid' hid
      refine List.Sublist.trans ?_ htr.sub
      refine List.Sublist.trans ?_ (List.sublist_append_left _ _)
      have e1 : [m', ml].Sublist l.msgs := by
        rcases List.eq_nil_or_concat l.msgs with h0 | ⟨ms, x, hx⟩
        · rw [h0] at hlt; simp at hlt
        · rw [List.concat_eq_append] at hx
          rw [hx] at hml hm' hlt3 ⊢
          simp only [List.length_append, List.length_singleton, Nat.add_sub_cancel] at hml hlt3
          rw [List.getElem?_append_left hlt3] at hm'
          simp only [List.getElem?_append_right (le_refl _), Nat.sub_self, List.getElem?_cons_zero, Option.some.injEq] at hml
          subst hml
          exact List.Sublist.append (List.singleton_sublist.2 (List.mem_of_getElem? hm')) (List.Sublist.refl [x])
      have e2 : [m].Sublist p.b.loader.featMeas := by rw [← hq]; exact List.singleton_sublist.2 (by simp)
      exact (List.Sublist.append e1 e2).map (·.ids)
    · have : i = l.msgs.length - 1 := by omega
      rw [this, hml] at hm'
      cases hm'
      exact hid'
  · intro f hf
    rw [List.getLast?_eq_getElem?] at hf
    have hpos := (List.getElem?_eq_some_iff.1 hf).1
    have hl := h.len
    obtain ⟨ml, hml⟩ : ∃ ml, l.msgs[p.b.u.w.frm.frames.length - 1]? = some ml := ⟨_, List.getElem?_eq_getElem (by omega)⟩
    have := (h.frames _ f ml hf hml).id_eq
    omega

theorem track_callOk {nc N U : Nat} {tot : List (List Nat)} (hc : Continuous tot) (ht : tot.length + 1 < two32) {l : Log K T} {p : BProc K T} {ops : List (BOp K T)}
    (h : Stable False nc N U l p.b) (htr : Track nc tot l p ops) (env : Env K) : CallOk nc p (.run env) :=
  track_rel hc ht h.rel htr env

/-- A tracker's history is a good one. -/
theorem track_goodRun {nc N U : Nat} {tot : List (List Nat)} (hfit : Fits nc (max 1 N + 1) U) (hc : Continuous tot) (ht : tot.length + 1 < two32) (ops : List (BOp K T)) :
    ∀ (p : BProc K T) (l : Log K T), Stable False nc N U l p.b → TimeOps.tlit 0 ≤ p.b.loader.imuPeriod →
    TimeOps.mul p.b.loader.imuPeriod (TimeOps.tlit (55/100)) ≤ p.b.loader.imuPeriod → (∀ op ∈ ops, op ≠ .reset) → Track nc tot l p ops → GoodRun nc p ops := by
  induction ops with
  | nil => intro p l _ _ _ _ _; trivial
  | cons op ops ih =>
    intro p l h h0 h1 hres htr
    have hres' : ∀ op ∈ ops, op ≠ .reset := fun o ho => hres o (List.mem_cons_of_mem _ ho)
    cases op with
    | imu m =>
      refine ⟨trivial, ?_⟩
      intro p' o e
      cases e
      exact ih _ l (stable_loader h _) h0 h1 hres' ⟨htr.sub, htr.count, htr.queue, htr.rest⟩
    | feat m =>
      refine ⟨trivial, ?_⟩
      intro p' o e
      cases e
      obtain ⟨e1, e2⟩ : (p.b.loader.pushFeatures p.statics m).loader.imuPeriod = p.b.loader.imuPeriod ∧
          ((p.b.loader.pushFeatures p.statics m).loader.featMeas = p.b.loader.featMeas ∨
            ∃ t, (p.b.loader.pushFeatures p.statics m).loader.featMeas = p.b.loader.featMeas ++ [{ m with ts := t }]) := by
        unfold Loader.pushFeatures
        dsimp only
        split
        · exact ⟨rfl, .inl rfl⟩
        · refine ⟨rfl, ?_⟩
          dsimp only
          generalize (if TimeOps.isNaN p.b.loader.offset = true then m.ts else p.b.loader.offset) = off
          split
          · exact .inr ⟨_, rfl⟩
          · exact .inl rfl
      have hsub := htr.sub
      have hcount := htr.count
      simp only [featMsgs, List.map_cons, List.length_cons] at hsub hcount
      have hm := htr.rest m List.mem_cons_self
      refine ih _ l (stable_loader h _) (by rw [show _ = _ from e1]; exact h0) (by rw [show _ = _ from e1]; exact h1) hres' ?_
      rcases e2 with e2 | ⟨t, e2⟩
      · refine ⟨?_, ?_, ?_, fun x hx => htr.rest x (List.mem_cons_of_mem _ hx)⟩
        · show ((l.msgs ++ (p.b.loader.pushFeatures p.statics m).loader.featMeas).map _ ++ _).Sublist _
          rw [e2]
          exact (List.Sublist.append (List.Sublist.refl _) (List.sublist_cons_self _ _)).trans hsub
        · show l.base + l.msgs.length + (p.b.loader.pushFeatures p.statics m).loader.featMeas.length + _ ≤ _
          rw [e2]; omega
        · show ∀ x ∈ (p.b.loader.pushFeatures p.statics m).loader.featMeas, _
          rw [e2]; exact htr.queue
      · refine ⟨?_, ?_, ?_, fun x hx => htr.rest x (List.mem_cons_of_mem _ hx)⟩
        · show ((l.msgs ++ (p.b.loader.pushFeatures p.statics m).loader.featMeas).map _ ++ _).Sublist _
          rw [e2]
          simpa [List.append_assoc] using hsub
        · show l.base + l.msgs.length + (p.b.loader.pushFeatures p.statics m).loader.featMeas.length + _ ≤ _
          rw [e2, List.length_append, List.length_singleton]; omega
        · show ∀ x ∈ (p.b.loader.pushFeatures p.statics m).loader.featMeas, _
          rw [e2]
          intro x hx
          rcases List.mem_append.1 hx with hx | hx
          · exact htr.queue x hx
          · rw [List.mem_singleton.1 hx]; exact ⟨hm.nodup, hm.len, hm.obs⟩
    | run env =>
      have hcall := track_callOk hc ht h htr env
      have hq := pop_feat p.b.loader
      have hsub := htr.sub
      have hcount := htr.count
      simp only [featMsgs] at hsub hcount
      have hpop : ∀ m, p.b.loader.popOne.out.featMeas = some m → GoodMsg l m ∧ GoodObs nc m ∧ l.base + l.msgs.length + 1 < two32 := by
        intro m hm
        obtain ⟨c1, c2, -⟩ := hcall m hm
        rw [hm, Option.toList_some, List.singleton_append] at hq
        have hlen : p.b.loader.featMeas.length = p.b.loader.popOne.loader.featMeas.length + 1 := by rw [← hq]; simp
        exact ⟨goodMsg_of_track h.rel nc m c1 c2, c1.obs, by omega⟩
      refine ⟨hcall, ?_⟩
      intro p' o e
      obtain ⟨r, b', l', e1, e2, e3, e4, -⟩ := runOnce_ok False env p.g h hfit h0 h1 hpop (by simp)
      rw [BProc.step, e1, Res.bind_ok] at e
      cases e
      have el := runOnce_loader _ _ _ _ _ e1
      have hlen : p.b.loader.featMeas.length = p.b.loader.popOne.out.featMeas.toList.length + p.b.loader.popOne.loader.featMeas.length := by
        rw [← List.length_append, hq]
      refine ih _ l' e2 (by show _ ≤ b'.loader.imuPeriod; rw [el, pop_period]; exact h0)
        (by show TimeOps.mul b'.loader.imuPeriod _ ≤ b'.loader.imuPeriod; rw [el, pop_period]; exact h1) hres' ⟨?_, ?_, ?_, htr.rest⟩
      · show ((l'.msgs ++ b'.loader.featMeas).map _ ++ _).Sublist _
        rw [el]
        refine List.Sublist.trans (List.Sublist.append (List.Sublist.map _ ?_) (List.Sublist.refl _)) hsub
        conv_rhs => rw [← hq]
        rw [← List.append_assoc]
        exact List.Sublist.append e3 (List.Sublist.refl _)
      · show l'.base + l'.msgs.length + b'.loader.featMeas.length + _ ≤ _
        rw [el]; omega
      · show ∀ x ∈ b'.loader.featMeas, _
        rw [el]
        intro x hx
        exact htr.queue x (by rw [← hq]; exact List.mem_append_right _ hx)
    | runTest =>
      refine ⟨trivial, ?_⟩
      intro p' o e
      cases e
      have hq := pop_feat p.b.loader
      have hlen : p.b.loader.featMeas.length = p.b.loader.popOne.out.featMeas.toList.length + p.b.loader.popOne.loader.featMeas.length := by
        rw [← List.length_append, hq]
      have hcount := htr.count
      simp only [featMsgs] at hcount
      refine ih _ l (stable_loader h _) (by show _ ≤ p.b.loader.popOne.loader.imuPeriod; rw [pop_period]; exact h0)
        (by show TimeOps.mul p.b.loader.popOne.loader.imuPeriod _ ≤ p.b.loader.popOne.loader.imuPeriod; rw [pop_period]; exact h1) hres' ⟨?_, ?_, ?_, htr.rest⟩
      · refine List.Sublist.trans (List.Sublist.append (List.Sublist.map _ (List.Sublist.append (List.Sublist.refl _) ?_)) (List.Sublist.refl _)) htr.sub
        conv_rhs => rw [← hq]
        exact List.sublist_append_right _ _
      · show l.base + l.msgs.length + p.b.loader.popOne.loader.featMeas.length + _ ≤ _
        omega
      · intro x hx
        exact htr.queue x (by rw [← hq]; exact List.mem_append_right _ hx)
    | publishPropagate =>
      refine ⟨trivial, ?_⟩
      intro p' o e
      rw [BProc.step] at e
      obtain ⟨s, -, e⟩ := Res.bind_eq_ok.1 e
      cases e
      exact ih p l h h0 h1 hres' ⟨htr.sub, htr.count, htr.queue, htr.rest⟩
    | publishUpdate =>
      refine ⟨trivial, ?_⟩
      intro p' o e
      rw [BProc.step] at e
      obtain ⟨s, -, e⟩ := Res.bind_eq_ok.1 e
      cases e
      exact ih p l h h0 h1 hres' ⟨htr.sub, htr.count, htr.queue, htr.rest⟩
    | reset => exact absurd rfl (hres _ List.mem_cons_self)

theorem tracker_goodRun (p : BProc K T) (ops : List (BOp K T)) (hf : Fresh p.b) (hr : Ready p.b) (hres : ∀ op ∈ ops, op ≠ .reset)
    (hm : ∀ m ∈ featMsgs ops, MsgOk p.b.u.w.frm.extrinsics.length m) (hc : Continuous ((featMsgs ops).map (·.ids))) (hn : (featMsgs ops).length + 1 < two32) :
    GoodRun p.b.u.w.frm.extrinsics.length p ops := by
  refine track_goodRun hr.fits hc (by rw [List.length_map]; exact hn) ops p Log.empty (fresh_stable p.b hf hr) hr.period hr.half hres ⟨?_, ?_, ?_, hm⟩
  · rw [hf.feat]; exact List.Sublist.refl _
  · rw [hf.feat, List.length_map]; show 1 + 0 + 0 + _ ≤ _; omega
  · rw [hf.feat]; intro m hm; cases hm

/-- C68 in terms of the input alone, partial for the same reason as `C68_no_ub_partial`: the messages are well formed, no lost id comes back, Reset is not called and
fewer than 2^32 - 1 messages are pushed. -/
theorem C68_tracker_partial (p : BProc K T) (ops : List (BOp K T)) (hf : Fresh p.b) (hr : Ready p.b) (hres : ∀ op ∈ ops, op ≠ .reset)
    (hm : ∀ m ∈ featMsgs ops, MsgOk p.b.u.w.frm.extrinsics.length m) (hc : Continuous ((featMsgs ops).map (·.ids))) (hn : (featMsgs ops).length + 1 < two32) :
    ∃ p' outs, p.run ops = .ok (p', outs) :=
  C68_no_ub_partial p ops hf hr (tracker_goodRun p ops hf hr hres hm hc hn)

end Safe

/-- C68: what `ConfigParams` makes of a new backend is the state the theorems start from. -/
theorem C68_configured (lib : ConfLib K) (fs : String → Option (List Char)) (path : String) (fuel : Nat) (s s' : Conf.St K) (g g' : Vec3 K) (st : Motion K) (b' : Backend K T) (r : Bool)
    (h : configParams lib fs path fuel s g (init st) = .ok (some (r, b', g', s'))) : Fresh b' ∧ b'.mounted = true := by
  obtain ⟨rfl, h1, -⟩ := C67_config lib fs path fuel s s' g g' (init st) b' r h
  unfold configParams at h
  rw [h1, Res.bind_ok] at h
  dsimp only at h
  obtain ⟨⟨b2, g2⟩, h2, h⟩ := Res.bind_eq_ok.1 h
  simp only [Res.ok.injEq, Option.some.injEq, Prod.mk.injEq] at h
  obtain ⟨-, rfl, rfl, -⟩ := h
  unfold applyConfig at h2
  obtain ⟨ex, -, h2⟩ := Res.bind_eq_ok.1 h2
  cases h2
  exact ⟨⟨rfl, rfl, rfl, rfl, rfl, rfl, rfl⟩, rfl⟩

/-! ### Concrete cases -/

theorem ex_fresh : Fresh exBackend := ⟨rfl, rfl, rfl, rfl, rfl, rfl, rfl⟩

theorem ex_ready : Ready exBackend := by
  refine ⟨rfl, ?_, ?_, ?_⟩
  · show (0 : ℚ) ≤ 1 / 10; norm_num
  · show (1 / 10 : ℚ) * (55 / 100) ≤ 1 / 10; norm_num
  · exact ⟨by decide, by decide, by decide⟩

/-- Two messages with the same ten tracks and a third that loses one and finds a new one. -/
def exLost : FeatMsg ℚ ℚ := ⟨[0, 1, 2, 3, 4, 5, 6, 7, 8, 20], (exMsg 10 2).observes, 2⟩

theorem ex_continuous : Continuous [List.range 10, List.range 10, exLost.ids] := by
  intro x y z h id hx hz
  have := h.eq_of_length rfl
  simp only [List.cons.injEq, and_true] at this
  obtain ⟨rfl, rfl, rfl⟩ := this
  exact hx

theorem ex_msgOk (m : FeatMsg ℚ ℚ) (h1 : m.ids.Nodup) (h2 : m.ids.length = 10) (h3 : m.observes = (exMsg 10 0).observes) : MsgOk 2 m := by
  refine ⟨h1, by rw [h2, h3]; rfl, ?_⟩
  intro o ho
  rw [h3] at ho
  obtain ⟨-, -, rfl⟩ := List.mem_map.1 ho
  decide

/-- The hypotheses of C68 hold for a history that initialises, updates twice and publishes. -/
example : GoodRun 2 exProc (exOps 10 ++ [.imu (exImu 2), .feat exLost, .run exEnv]) := by
  refine tracker_goodRun exProc _ ex_fresh ex_ready ?_ ?_ ex_continuous (by decide)
  · intro op hop h; subst h; revert hop; simp [exOps]
  · intro m hm
    have : m = exMsg 10 0 ∨ m = exMsg 10 1 ∨ m = exLost := by simpa [exOps, featMsgs] using hm
    rcases this with rfl | rfl | rfl
    · exact ex_msgOk _ (by decide) rfl rfl
    · exact ex_msgOk _ (by decide) rfl rfl
    · exact ex_msgOk _ (by decide) rfl rfl

/-- C68 is false as stated: in the same well-formed history the first `RunOnce` pops through a reference to a removed queue slot. -/
theorem C68_freed_read : ∃ p' outs, exProc.run ((exOps 10).take 2) = .ok (p', outs) ∧ p'.b.loader.popOne.freedRead = true := by
  have h : (exProc.run ((exOps 10).take 2)).check (fun r => r.1.b.loader.popOne.freedRead) = true := by decide +kernel
  obtain ⟨⟨p', outs⟩, h1, h2⟩ := Res.exists_of_check h
  exact ⟨p', outs, h1, h2⟩

/-- C70: a window of two frames is reached, and the failed update leaves one. -/
example : Bounded 2 exProc.b ∧ (exProc.run (exOps 10)).check (fun r => decide (r.1.b.u.w.frm.frames.length = 2)) = true ∧
    (exProc.run (exOps 10 ++ [.feat (exMsg 10 3), .run exEnv])).check (fun r => decide (r.1.b.u.w.frm.frames.length = 1)) = true :=
  ⟨⟨rfl, by decide⟩, by decide +kernel, by decide +kernel⟩

/-- C79: ordered input for which two states are published, at different times. -/
example : (imuTimes (exOps 10 ++ [.imu (exImu 2), .run exEnv, .publishPropagate])).Pairwise (· ≤ ·) ∧
    (exProc.run (exOps 10 ++ [.imu (exImu 2), .run exEnv, .publishPropagate])).check
      (fun r => decide (pubTimes (exOps 10 ++ [.imu (exImu 2), .run exEnv, .publishPropagate]) r.2 = [2, 3])) = true := by
  refine ⟨?_, by decide +kernel⟩
  simp [imuTimes, exOps, exImu]
end Backend
end Vio
