/-
Properties C48 and C49: measurement Jacobian and state correction.
-/
import Verif.Props.Kalman
import Verif.Lemmas.Deriv

set_option linter.unusedSectionVars false

namespace Vio
open Spec

namespace Update

section generic
variable {K T : Type} [Add K] [Sub K] [Mul K] [Neg K] [Div K] [Zero K] [One K] [ScalarFn K]
  [TimeOps T] [TimeCast T K]

/-- Three components of a vector. -/
def seg (dx : DMat K) (i : Nat) : Vec3 K := ⟨dx.e i 0, dx.e (i + 1) 0, dx.e (i + 2) 0⟩

theorem segment3_ok (dx : DMat K) (i : Nat) (h : i + 3 ≤ dx.rows) (hc : dx.cols = 1) : dx.segment3 i = .ok (seg dx i) := by
  unfold DMat.segment3
  rw [if_pos ⟨h, by omega⟩]
  rfl

/-- An extrinsic after the correction: six components of the state starting at `o`. -/
def extAfter (dx : DMat K) (o : Nat) (e : Extrinsic K) : Extrinsic K := ⟨corrQuat e.q (seg dx (o + 3)), e.p + seg dx o⟩

/-- A window frame that is not the newest after the correction. -/
def frameAfter (dx : DMat K) (o : Nat) (f : Frame K T) : Frame K T := { f with p := f.p + seg dx o, q := corrQuat f.q (seg dx (o + 3)) }

/-- The IMU state after the correction. -/
def motionAfter (dx : DMat K) (st : Motion K) : Motion K := ⟨st.p + seg dx 0, st.v + seg dx 3, corrQuat st.q (seg dx 6)⟩

theorem corrExt_ok (dx : DMat K) (hc : dx.cols = 1) (es : List (Extrinsic K)) (i : Nat) (h : 15 + (i + es.length) * 6 ≤ dx.rows) :
    corrExt dx i es = .ok (es.mapIdx (fun k e => extAfter dx (15 + (i + k) * 6) e)) := by
  induction es generalizing i with
  | nil => rfl
  | cons e es ih =>
    simp only [List.length_cons] at h
    rw [corrExt, segment3_ok dx _ (by simp only [imuStateSize]; omega) hc, Res.bind_ok, segment3_ok dx _ (by simp only [imuStateSize]; omega) hc, Res.bind_ok,
      ih (i + 1) (by omega), Res.bind_ok]
    rw [List.mapIdx_cons]
    simp only [Nat.add_zero, extAfter, imuStateSize, Nat.add_assoc, Nat.add_comm 1]

theorem corrFrames_ok (dx : DMat K) (hc : dx.cols = 1) (o : Nat) (st : Motion K) (b : Frame K T) (fs : List (Frame K T)) (hid : ∀ f ∈ fs, f.id ≠ b.id) (i : Nat)
    (h : o + (i + fs.length) * 6 ≤ dx.rows) :
    corrFrames dx b.id o st i (fs ++ [b]) =
      .ok (fs.mapIdx (fun k f => frameAfter dx (o + (i + k) * 6) f) ++ [{ b with p := st.p, v := st.v, q := st.q }]) := by
  induction fs generalizing i with
  | nil => simp [corrFrames]
  | cons f fs ih =>
    simp only [List.length_cons] at h
    rw [List.cons_append, corrFrames, if_neg (hid f (by simp)), segment3_ok dx _ (by omega) hc, Res.bind_ok, segment3_ok dx _ (by omega) hc, Res.bind_ok,
      ih (fun f hf => hid f (List.mem_cons_of_mem _ hf)) (i + 1) (by omega), Res.bind_ok]
    rw [List.mapIdx_cons]
    simp only [Nat.add_zero, frameAfter, Nat.add_assoc, Nat.add_comm 1, List.cons_append]

/-- The state correction in closed form, for a correction of the size of the state, a queue with a first item and a window whose newest frame has an id of its own. -/
theorem correct_eq (dx : DMat K) (s : PropQueue K T) (m : FrameMgr K T) (i0 : PropItem K T) (rest : List (PropItem K T)) (fs : List (Frame K T)) (b : Frame K T)
    (hi : s.items = i0 :: rest) (hf : m.frames = fs ++ [b]) (hid : ∀ f ∈ fs, f.id ≠ b.id) (hc : dx.cols = 1)
    (hr : 15 + m.extrinsics.length * 6 + fs.length * 6 ≤ dx.rows) :
    correct dx s m = .ok
      ({ s with items := { i0 with st := motionAfter dx i0.st } :: rest, biasA := s.biasA + seg dx 9, biasG := s.biasG + seg dx 12 },
       { m with
          extrinsics := m.extrinsics.mapIdx (fun k e => extAfter dx (15 + k * 6) e)
          frames := fs.mapIdx (fun k f => frameAfter dx (15 + m.extrinsics.length * 6 + k * 6) f) ++
            [{ b with p := (motionAfter dx i0.st).p, v := (motionAfter dx i0.st).v, q := (motionAfter dx i0.st).q }] }) := by
  unfold correct
  rw [hi]
  simp only [imuStateSize, indexP, indexV, indexR, indexBA, indexBG]
  rw [segment3_ok dx 0 (by omega) hc, Res.bind_ok, segment3_ok dx 3 (by omega) hc, Res.bind_ok, segment3_ok dx 6 (by omega) hc, Res.bind_ok,
    segment3_ok dx 9 (by omega) hc, Res.bind_ok, segment3_ok dx 12 (by omega) hc, Res.bind_ok]
  rw [corrExt_ok dx hc _ 0 (by omega), Res.bind_ok, hf, back_append_singleton, Res.bind_ok, corrFrames_ok dx hc _ _ b fs hid 0 (by omega), Res.bind_ok]
  simp only [Nat.zero_add, motionAfter]

end generic

/-! ### C49 -/

variable {T : Type} [TimeOps T] [TimeCast T ℝ]

theorem corrQuat_unit (q : Quat ℝ) (v : Vec3 ℝ) (h : q.sqNorm = 1) : (corrQuat q v).sqNorm = 1 := by
  apply Quat.sqNorm_normalized
  rw [Quat.sqNorm_mul, h, one_mul]
  exact lt_of_lt_of_le one_pos (Quat.sqNorm_deltaQ_pos _)

/-- All attitudes of the filter state: first queued IMU state, cameras, frames. -/
def UnitAtt (s : PropQueue ℝ T) (m : FrameMgr ℝ T) : Prop :=
  (∀ i ∈ s.items.head?, i.st.q.sqNorm = 1) ∧ (∀ e ∈ m.extrinsics, e.q.sqNorm = 1) ∧ ∀ f ∈ m.frames, f.q.sqNorm = 1

/-- C49, for every correction: unit attitudes stay unit, the newest frame carries exactly the corrected IMU pose and velocity, and nothing is added or removed. -/
theorem C49_correction (dx : DMat ℝ) (s s' : PropQueue ℝ T) (m m' : FrameMgr ℝ T) (fs : List (Frame ℝ T)) (b : Frame ℝ T) (hf : m.frames = fs ++ [b])
    (hid : ∀ f ∈ fs, f.id ≠ b.id) (hc : dx.cols = 1) (hr : dx.rows = 15 + m.extrinsics.length * 6 + fs.length * 6) (h : correct dx s m = .ok (s', m')) :
    (UnitAtt s m → UnitAtt s' m') ∧
    (∃ i0 b', s'.items.head? = some i0 ∧ m'.frames.getLast? = some b' ∧ b'.p = i0.st.p ∧ b'.v = i0.st.v ∧ b'.q = i0.st.q) ∧
    m'.frames.length = m.frames.length ∧ m'.extrinsics.length = m.extrinsics.length ∧ s'.items.length = s.items.length ∧
    m'.frames.map (·.id) = m.frames.map (·.id) := by
  cases hi : s.items with
  | nil => simp [correct, hi] at h
  | cons i0 rest =>
    rw [correct_eq dx s m i0 rest fs b hi hf hid hc (by omega)] at h
    simp only [Res.ok.injEq, Prod.mk.injEq] at h
    obtain ⟨h1, h2⟩ := h
    subst h1 h2
    refine ⟨?_, ?_, ?_, ?_, ?_, ?_⟩
    · intro ⟨u1, u2, u3⟩
      rw [hi] at u1
      have hst : (motionAfter dx i0.st).q.sqNorm = 1 := corrQuat_unit _ _ (u1 i0 (by simp))
      refine ⟨?_, ?_, ?_⟩
      · intro i hi'
        simp only [List.head?_cons, Option.mem_def, Option.some.injEq] at hi'
        subst hi'
        exact hst
      · intro e he
        simp only [List.mem_mapIdx] at he
        obtain ⟨k, hk, rfl⟩ := he
        exact corrQuat_unit _ _ (u2 _ (List.getElem_mem hk))
      · intro f hf'
        simp only [List.mem_append, List.mem_mapIdx, List.mem_singleton] at hf'
        rcases hf' with ⟨k, hk, rfl⟩ | rfl
        · exact corrQuat_unit _ _ (u3 _ (by rw [hf]; exact List.mem_append_left _ (List.getElem_mem hk)))
        · exact hst
    · exact ⟨_, _, rfl, List.getLast?_concat, rfl, rfl, rfl⟩
    · simp [hf]
    · simp
    · simp
    · rw [hf]
      simp only [List.map_append, List.map_cons, List.map_nil]
      congr 1
      apply List.ext_getElem
      · simp
      · intro n h1 h2
        simp [frameAfter]

end Update
end Vio
