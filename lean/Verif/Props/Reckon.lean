/-
C82: between the updated state and the newest one the queue is dead reckoning along its own samples, in every history of calls.
-/
import Verif.Spec.Reckon
import Verif.Props.Restart

set_option linter.unusedSectionVars false

namespace Vio
open Spec WinSpec AttSpec Update

variable {K T : Type} [Add K] [Sub K] [Mul K] [Neg K] [Div K] [Zero K] [One K] [ScalarFn K]
  [TimeOps T] [TimeCast T K]

namespace Reckon

/-- Every queued item follows from the one before it by a step of dead reckoning. -/
def Chained (g ba bg : Vec3 K) : List (PropItem K T) → Prop
  | a :: b :: rest => b.st = step g ba bg a.st (sample a) (sample b) ∧ Chained g ba bg (b :: rest)
  | _ => True

theorem chained_tail (g ba bg : Vec3 K) (a : PropItem K T) (l : List (PropItem K T)) (h : Chained g ba bg (a :: l)) : Chained g ba bg l := by
  cases l with
  | nil => trivial
  | cons b l => exact h.2

theorem chained_suffix (g ba bg : Vec3 K) (l l' : List (PropItem K T)) (hs : l' <:+ l) (h : Chained g ba bg l) : Chained g ba bg l' := by
  obtain ⟨x, rfl⟩ := hs
  induction x with
  | nil => exact h
  | cons a x ih => exact ih (chained_tail g ba bg a _ h)

theorem chained_snoc (g ba bg : Vec3 K) (l : List (PropItem K T)) : ∀ (z b : PropItem K T), Chained g ba bg (l ++ [z]) → b.st = step g ba bg z.st (sample z) (sample b) →
    Chained g ba bg (l ++ [z] ++ [b]) := by
  induction l with
  | nil => intro z b _ hb; exact ⟨hb, trivial⟩
  | cons a l ih =>
    intro z b h hb
    have := ih z b (chained_tail g ba bg a _ h) hb
    cases l with
    | nil => exact ⟨h.1, this⟩
    | cons c l => exact ⟨h.1, this⟩

theorem chained_last (g ba bg : Vec3 K) (rest : List (PropItem K T)) : ∀ (i z : PropItem K T), Chained g ba bg (i :: rest) → (i :: rest).getLast? = some z →
    z.st = along g ba bg i.st (sample i) (rest.map sample) := by
  induction rest with
  | nil => intro i z _ h; simp at h; subst h; rfl
  | cons b rest ih =>
    intro i z h hz
    rw [List.getLast?_cons_cons] at hz
    have := ih b z h.2 hz
    rw [h.1] at this
    exact this

/-- The propagator's step is the step of dead reckoning. -/
theorem nominal_step (s : PropQueue K T) (g : Vec3 K) (i : PropItem K T) (a w : Vec3 K) (t : T) :
    s.nominal g i a w t = step g s.biasA s.biasG i.st (sample i) (a, w, t) := rfl

/-- The invariant of a queue. -/
def Ok (g : Vec3 K) (s : PropQueue K T) : Prop := Chained g s.biasA s.biasG s.items

theorem propagate_ok (s : PropQueue K T) (nExt : Nat) (g a w : Vec3 K) (t : T) (h : Ok g s) : Ok g (s.propagate nExt g a w t) := by
  unfold PropQueue.propagate
  rcases List.eq_nil_or_concat s.items with hs | ⟨l, z, hs⟩
  · simp only [hs, List.getLast?_nil]; trivial
  · rw [List.concat_eq_append] at hs
    simp only [hs, List.getLast?_concat]
    unfold Ok at h ⊢
    dsimp only
    rw [hs] at h
    exact chained_snoc _ _ _ _ _ _ h rfl

theorem replay_ok (mounted : Bool) (nExt : Nat) (g : Vec3 K) (its : List (AttItem K T)) : ∀ s s' : PropQueue K T, Backend.replay mounted nExt g s its = .ok s' → Ok g s → Ok g s' := by
  induction its with
  | nil => intro s s' h hs; cases h; exact hs
  | cons it its ih =>
    intro s s' h hs
    rw [Backend.replay] at h
    split at h
    · exact ih _ _ h (propagate_ok s nExt g _ _ _ hs)
    · cases h

theorem repropLoop_ok (g : Vec3 K) (rest : List (PropItem K T)) : ∀ (s : PropQueue K T) (i0 : PropItem K T),
    Chained g s.biasA s.biasG (i0 :: (PropQueue.repropLoop g s i0 rest).2) ∧ (PropQueue.repropLoop g s i0 rest).1.biasA = s.biasA ∧ (PropQueue.repropLoop g s i0 rest).1.biasG = s.biasG := by
  induction rest with
  | nil => intro s i0; exact ⟨trivial, rfl, rfl⟩
  | cons i1 rest ih =>
    intro s i0
    obtain ⟨h1, h2, h3⟩ := ih { s with F := s.stepF i0 i1.accel i1.gyro i1.ts, G := s.stepG i0 i1.ts } (s.stepItem g i0 i1.accel i1.gyro i1.ts)
    exact ⟨⟨rfl, h1⟩, h2, h3⟩

theorem repropagate_ok (s : PropQueue K T) (g : Vec3 K) : Ok g (s.repropagate g) := by
  unfold PropQueue.repropagate
  split
  · rename_i h; unfold Ok; rw [h]; trivial
  · rename_i i0 rest h
    obtain ⟨h1, h2, h3⟩ := repropLoop_ok g rest s i0
    unfold Ok
    dsimp only
    rw [h2, h3]
    exact h1

theorem finish_ok (env : Env K) (g : Vec3 K) (u u' : Upd K T) (b : Bool) (h : finish env g u = .ok (b, u')) : Ok g u'.q := by
  unfold finish at h
  obtain ⟨c1, h1, h⟩ := Res.bind_eq_ok.1 h
  obtain ⟨c2, h2, h⟩ := Res.bind_eq_ok.1 h
  obtain ⟨s, h3, h⟩ := Res.bind_eq_ok.1 h
  cases h
  exact repropagate_ok s g

theorem update_ok (env : Env K) (noise : K) (maxUsed : Nat) (g : Vec3 K) (u u' : Upd K T) (ts thr : T) (good : Bool) (hq : Ok g u.q)
    (h : update env noise maxUsed g u ts thr = .ok (good, u')) : Ok g u'.q := by
  unfold update at h
  have hr : Ok g (u.q.resetOrigin ts thr).1 := by
    unfold PropQueue.resetOrigin
    split
    · exact hq
    · obtain ⟨old, ho, -⟩ := resetLoop_spec ts thr u.q.items
      exact chained_suffix _ _ _ _ _ ⟨old, ho.symm⟩ hq
  generalize u.q.resetOrigin ts thr = q at h hr
  obtain ⟨s, found⟩ := q
  dsimp only at h hr
  split at h
  · cases h; exact hr
  obtain ⟨policy, hp, h⟩ := Res.bind_eq_ok.1 h
  obtain ⟨⟨good1, c⟩, hc, h⟩ := Res.bind_eq_ok.1 h
  dsimp only at h
  split at h
  · cases h; exact hr
  obtain ⟨⟨good', m⟩, hn, h⟩ := Res.bind_eq_ok.1 h
  dsimp only at h
  split at h
  · cases h; exact hr
  obtain ⟨⟨w, fs, pos⟩, hs, h⟩ := Res.bind_eq_ok.1 h
  dsimp only at h hs
  split at h
  · exact finish_ok _ _ _ _ _ h
  · obtain ⟨hx, hm, h⟩ := Res.bind_eq_ok.1 h
    split at h
    · cases h; exact hr
    · obtain ⟨u1, hu, h⟩ := Res.bind_eq_ok.1 h
      exact finish_ok _ _ _ _ _ h

theorem onFeat_ok (env : Env K) (g : Vec3 K) (b b' : Backend K T) (m : FeatMsg K T) (hq : Ok g b.u.q) (h : b.onFeat env g m = .ok b') : Ok g b'.u.q := by
  obtain ⟨b1, b2, h1, h2, h3⟩ := Backend.onFeat_eq env g b b' m h
  rw [(Backend.cleanAtt_any _ _ h3).1]
  have e1 : Ok g b1.u.q := by
    unfold Backend.tryInit at h1
    split at h1
    · obtain ⟨⟨good, b3⟩, hi, h1⟩ := Res.bind_eq_ok.1 h1
      obtain ⟨-, i2, i3⟩ := Backend.initialise_queue _ _ _ _ _ hi
      dsimp only at h1
      split at h1
      · rename_i hg
        cases h1
        obtain ⟨st, t, -, hr⟩ := i3 hg
        exact replay_ok _ _ _ _ _ _ hr hq
      · rename_i hg
        obtain ⟨w, rfl, -⟩ := Backend.shrunk_keep _ _ h1
        show Ok g b3.u.q
        rw [(i2 (by simpa using hg)).1]
        exact hq
    · cases h1; exact hq
  unfold Backend.tryUpdate at h2
  split at h2
  · cases h2; exact e1
  · split at h2
    · obtain ⟨⟨good, u⟩, hu, h2⟩ := Res.bind_eq_ok.1 h2
      have e2 := update_ok env _ _ _ _ _ _ _ _ e1 hu
      dsimp only at h2
      split at h2
      · obtain ⟨w, hw, h2⟩ := Res.bind_eq_ok.1 h2
        cases h2
        exact e2
      · obtain ⟨w, rfl, -⟩ := Backend.shrunk_keep _ _ h2
        exact e2
    · cases h2

theorem onImu_ok (g : Vec3 K) (b b' : Backend K T) (ms : List (ImuMsg K T)) (r : Bool) (hq : Ok g b.u.q) (h : b.onImu g ms = .ok (r, b')) : Ok g b'.u.q := by
  cases ms with
  | nil => cases h; exact hq
  | cons m ms =>
    rw [Backend.onImu] at h
    generalize b.att.propagate g m.accel m.gyro m.ts = ar at h
    obtain ⟨att, res⟩ := ar
    dsimp only at h
    split at h
    · cases h; exact hq
    · split at h
      · cases h; exact propagate_ok _ _ _ _ _ _ hq
      · cases h

theorem run_ok (ops : List (BOp K T)) : ∀ (p p' : BProc K T) (outs : List (BOut K T)), Ok p.g p.b.u.q → p.run ops = .ok (p', outs) → p'.g = p.g ∧ Ok p.g p'.b.u.q := by
  induction ops with
  | nil => intro p p' outs hq h; cases h; exact ⟨rfl, hq⟩
  | cons op ops ih =>
    intro p p' outs hq h
    rw [BProc.run] at h
    obtain ⟨⟨p1, o⟩, hs, h⟩ := Res.bind_eq_ok.1 h
    obtain ⟨⟨p2, os⟩, hr, h⟩ := Res.bind_eq_ok.1 h
    cases h
    have key : p1.g = p.g ∧ Ok p.g p1.b.u.q := by
      cases op with
      | run env =>
        obtain ⟨⟨r, b'⟩, hb', hs⟩ := Res.bind_eq_ok.1 hs
        cases hs
        refine ⟨rfl, ?_⟩
        rcases Backend.runOnce_eq env p.g p.b b' r hb' with ⟨-, -, rfl⟩ | ⟨-, res, b1, h1, h2⟩
        · exact hq
        · have hq1 := onImu_ok p.g { p.b with loader := p.b.loader.popOne.loader } b1 _ _ hq h1
          rcases h2 with ⟨-, -, rfl⟩ | ⟨m, -, -, h2⟩
          · exact hq1
          · exact onFeat_ok env p.g b1 b' m hq1 h2
      | imu m => cases hs; exact ⟨rfl, hq⟩
      | feat m => cases hs; exact ⟨rfl, hq⟩
      | runTest => cases hs; exact ⟨rfl, hq⟩
      | publishPropagate =>
        obtain ⟨_, _, hs⟩ := Res.bind_eq_ok.1 hs
        cases hs; exact ⟨rfl, hq⟩
      | publishUpdate =>
        obtain ⟨_, _, hs⟩ := Res.bind_eq_ok.1 hs
        cases hs; exact ⟨rfl, hq⟩
      | reset => cases hs; exact ⟨rfl, hq⟩
    obtain ⟨k1, k2⟩ := key
    obtain ⟨j1, j2⟩ := ih p1 p' os (by rw [k1]; exact k2) hr
    exact ⟨j1.trans k1, by rw [k1] at j2; exact j2⟩

end Reckon

namespace Backend

/-- C82.  After every defined history of calls of a backend that starts with an empty queue, Reset and malformed messages included: when both published states exist they carry the same
biases, and the newest one is dead reckoning from the updated one with those biases along the samples of the queue; the first sample is the one of the updated state and the last one has the
time of the newest state. -/
theorem C82_dead_reckoning (p p' : BProc K T) (ops : List (BOp K T)) (outs : List (BOut K T)) (hq : p.b.u.q.items = []) (h : p.run ops = .ok (p', outs)) :
    (p'.b.u.q.items = [] ∧ p'.b.publishUpdate = .ok none ∧ p'.b.publishPropagate = .ok none) ∨
    ∃ u v s0 rest, p'.b.publishUpdate = .ok (some u) ∧ p'.b.publishPropagate = .ok (some v) ∧ p'.b.u.q.items.map sample = s0 :: rest ∧
      v.st = Reckon.along p.g u.biasA u.biasG u.st s0 rest ∧ v.biasA = u.biasA ∧ v.biasG = u.biasG ∧ u.ts = s0.2.2 ∧ (s0 :: rest).getLast?.map (·.2.2) = some v.ts := by
  obtain ⟨hg, hc⟩ := Reckon.run_ok ops p p' outs (by unfold Reckon.Ok; rw [hq]; trivial) h
  obtain ⟨ou, u1, u2, u3⟩ := C72_update p'.b
  obtain ⟨ov, v1, v2, v3⟩ := C72_propagate p'.b
  cases hi : p'.b.u.q.items with
  | nil => exact .inl ⟨rfl, by rw [u1, u2.2 hi], by rw [v1, v2.2 hi]⟩
  | cons i rest =>
    right
    cases ou with
    | none => rw [u2.1 rfl] at hi; cases hi
    | some u =>
      cases ov with
      | none => rw [v2.1 rfl] at hi; cases hi
      | some v =>
        obtain ⟨l1, i1, a1, a2, a3, a4, a5⟩ := u3 u rfl
        obtain ⟨l2, i2, b1, b2, b3, b4, b5⟩ := v3 v rfl
        rw [hi] at a1
        cases a1
        refine ⟨u, v, sample i, rest.map sample, u1, v1, rfl, ?_, b4.trans a4.symm, b5.trans a5.symm, a3, ?_⟩
        · unfold Reckon.Ok at hc
          rw [hi] at hc
          rw [b2, a2, a4, a5]
          refine Reckon.chained_last _ _ _ rest i i2 hc ?_
          rw [← hi, b1]; simp
        · rw [← List.map_cons, ← hi, b1]
          simp [sample, b3]

/-- C82, what the samples are: a message of the IMU that arrives while the filter is initialised appends exactly its sample, and one that arrives before that appends nothing. -/
theorem C82_sample_added (env : Env K) (g : Vec3 K) (b b' : Backend K T) (r : Bool) (h : b.runOnce env g = .ok (r, b')) (m : ImuMsg K T) (hm : b.loader.popOne.out.imuMeas = [m])
    (hf : b.loader.popOne.out.featMeas = none) :
    b'.u.q.items.map sample = b.u.q.items.map sample ++ (if b.status = .initialized then [(m.accel, m.gyro, m.ts)] else []) := by
  rcases runOnce_eq env g b b' r h with ⟨h1, -, -⟩ | ⟨-, res, b1, hi, h2⟩
  · have := (popOne_ret b.loader).1 h1
    unfold Loader.popOne at hm
    simp [this.1, this.2, Combined.cleared] at hm
  · rcases h2 with ⟨-, -, rfl⟩ | ⟨m', hm', -⟩
    · rw [hm, onImu] at hi
      generalize b.att.propagate g m.accel m.gyro m.ts = ar at hi
      obtain ⟨att, res⟩ := ar
      dsimp only at hi
      split at hi
      · rename_i hs; cases hi; rw [if_neg (by rw [hs]; decide)]; simp
      · rename_i hs
        split at hi
        · cases hi
          rw [if_pos hs]
          dsimp only
          unfold PropQueue.propagate
          rcases List.eq_nil_or_concat b.u.q.items with hs | ⟨l, z, hs⟩
          · simp [hs, sample]
          · rw [List.concat_eq_append] at hs
            simp [hs, sample, PropQueue.stepItem]
        · cases hi
    · rw [hf] at hm'; cases hm'

/-- C82: a history with two updates and two later samples; the queue holds three samples, so the newest state is two steps after the updated one. -/
example : exProc.b.u.q.items = [] ∧ (exProc.run (exOps 10 ++ [.imu (exImu 2), .run exEnv, .imu (exImu 3), .run exEnv])).check
    (fun r => decide (r.1.b.status = .initialized) && decide (r.1.b.u.q.items.map (·.ts) = [2, 3, 4])) = true := ⟨rfl, by decide +kernel⟩

end Backend
end Vio
