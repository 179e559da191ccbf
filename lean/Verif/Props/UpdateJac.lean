/-
Property C48: the measurement Jacobian is the derivative of the predicted observation along the corrections.
-/
import Verif.Props.UpdateState

set_option linter.unusedSectionVars false

namespace Vio
open Spec

namespace Update

variable {T : Type} [TimeOps T] [TimeCast T ℝ]

theorem mulMat_mulVec (a : Mat23 ℝ) (m : Mat3 ℝ) (v : Vec3 ℝ) : (a.mulMat m).mulVec v = a.mulVec (m.mulVec v) := by
  apply Vec2.ext <;> simp only [Mat23.mulMat, Mat23.mulVec, Mat3.mulVec, Mat3.transpose, Vec3.dot] <;> ring

theorem mul_mulVec (a b : Mat3 ℝ) (v : Vec3 ℝ) : (a.mul b).mulVec v = a.mulVec (b.mulVec v) := by
  apply Vec3.ext <;> simp only [Mat3.mul, Mat3.mulVec, Mat3.transpose, Vec3.dot] <;> ring

theorem neg_mulVec (a : Mat3 ℝ) (v : Vec3 ℝ) : (-a).mulVec v = -(a.mulVec v) := by
  apply Vec3.ext <;> simp [Mat3.mulVec, Vec3.dot] <;> ring

theorem skew_mulVec (a v : Vec3 ℝ) : (Utility.skew a).mulVec v = a.cross v := by
  apply Vec3.ext <;> simp [Utility.skew, Mat3.mulVec, Vec3.dot] <;> ring

theorem corrQuat_inverse_rotate (q : Quat ℝ) (hq : q.sqNorm = 1) (t v : Vec3 ℝ) :
    (corrQuat q t).inverse.rotate v = (Utility.deltaQ t).normalized.inverse.rotate (q.inverse.rotate v) := by
  have hd : (Utility.deltaQ t).normalized.sqNorm = 1 :=
    Quat.sqNorm_normalized _ (lt_of_lt_of_le one_pos (Quat.sqNorm_deltaQ_pos _))
  rw [corrQuat, Quat.mul_normalized_of_unit _ _ hq, Quat.inverse_mul _ _ hq hd,
    Quat.rotate_mul _ _ (Quat.sqNorm_inverse_of_unit _ hd) (Quat.sqNorm_inverse_of_unit _ hq)]

theorem deltaQ_zero_inverse_rotate (t v : Vec3 ℝ) : (Utility.deltaQ (Vec3.smul 0 t)).normalized.inverse.rotate v = v := by
  rw [Quat.deltaQ_inverse_rotate]
  apply Vec3.ext <;> simp [Vec3.sqNorm, Vec3.dot, Vec3.smul, Vec3.sdiv]

/-- C48, the blocks: along every simultaneous correction of position `a`, attitude `b`, extrinsic translation `c`, extrinsic rotation `d` and landmark `w` the derivative of
the predicted observation is the sum of the Jacobian blocks times the directions. -/
theorem C48_blocks (f : Frame ℝ T) (e : Extrinsic ℝ) (pw a b c d w : Vec3 ℝ) (hf : f.q.sqNorm = 1) (he : e.q.sqNorm = 1) (hz : camDepth f.q f.p e.q e.p pw ≠ 0) :
    HasDeriv2 (fun t => predict (corrQuat f.q (.smul t b)) (f.p + .smul t a) (corrQuat e.q (.smul t d)) (e.p + .smul t c) (pw + .smul t w))
      ((jacPw f e pw).mulVec w + (jacPwb f e pw).mulVec a + (jacRwb f e pw).mulVec b + (jacPbc f e pw).mulVec c + (jacRbc f e pw).mulVec d) 0 := by
  have h1 : HasDeriv3 (fun t => (pw + .smul t w) - (f.p + .smul t a)) ((0 + w) - (0 + a)) 0 :=
    ((HasDeriv3.const pw 0).add (HasDeriv3.line w 0)).sub ((HasDeriv3.const f.p 0).add (HasDeriv3.line a 0))
  have h2 := (h1.rotate f.q.inverse).correction b
  have h3 := h2.sub ((HasDeriv3.const e.p 0).add (HasDeriv3.line c 0))
  have h4 := (h3.rotate e.q.inverse).correction d
  have e1 : (pw + Vec3.smul 0 w) - (f.p + Vec3.smul 0 a) = pw - f.p := by apply Vec3.ext <;> simp
  have e2 : f.q.inverse.rotate (pw - f.p) - (e.p + Vec3.smul 0 c) = f.q.inverse.rotate (pw - f.p) - e.p := by apply Vec3.ext <;> simp
  have h5 := h4.proj_at (e.q.inverse.rotate (f.q.inverse.rotate (pw - f.p) - e.p)) (by simp only [deltaQ_zero_inverse_rotate, e1, e2]) hz
  have hfun : (fun t => predict (corrQuat f.q (.smul t b)) (f.p + .smul t a) (corrQuat e.q (.smul t d)) (e.p + .smul t c) (pw + .smul t w)) = fun t =>
      ⟨((Utility.deltaQ (.smul t d)).normalized.inverse.rotate (e.q.inverse.rotate ((Utility.deltaQ (.smul t b)).normalized.inverse.rotate
          (f.q.inverse.rotate ((pw + .smul t w) - (f.p + .smul t a))) - (e.p + .smul t c)))).x /
        ((Utility.deltaQ (.smul t d)).normalized.inverse.rotate (e.q.inverse.rotate ((Utility.deltaQ (.smul t b)).normalized.inverse.rotate
          (f.q.inverse.rotate ((pw + .smul t w) - (f.p + .smul t a))) - (e.p + .smul t c)))).z,
       ((Utility.deltaQ (.smul t d)).normalized.inverse.rotate (e.q.inverse.rotate ((Utility.deltaQ (.smul t b)).normalized.inverse.rotate
          (f.q.inverse.rotate ((pw + .smul t w) - (f.p + .smul t a))) - (e.p + .smul t c)))).y /
        ((Utility.deltaQ (.smul t d)).normalized.inverse.rotate (e.q.inverse.rotate ((Utility.deltaQ (.smul t b)).normalized.inverse.rotate
          (f.q.inverse.rotate ((pw + .smul t w) - (f.p + .smul t a))) - (e.p + .smul t c)))).z⟩ := by
    funext t
    simp only [predict, corrQuat_inverse_rotate _ hf, corrQuat_inverse_rotate _ he]
  rw [hfun]
  refine HasDeriv2.congr h5 ?_
  have e3 : ((0 : Vec3 ℝ) + w) - (0 + a) = w - a := by apply Vec3.ext <;> simp
  have e4 : (0 : Vec3 ℝ) + c = c := by apply Vec3.ext <;> simp
  simp only [deltaQ_zero_inverse_rotate, e1, e2, e3, e4]
  simp only [jacPw, jacPwb, jacRwb, jacPbc, jacRbc, mulMat_mulVec, mul_mulVec, neg_mulVec, skew_mulVec, Quat.toMat_mulVec, camPoint, bodyPoint, Quat.rotate_add, Quat.rotate_sub]
  simp only [camDepth, Quat.rotate_sub] at hz
  generalize e.q.inverse.rotate (f.q.inverse.rotate (pw)) - e.q.inverse.rotate (f.q.inverse.rotate f.p) - e.q.inverse.rotate e.p = p at hz ⊢
  generalize e.q.inverse.rotate ((f.q.inverse.rotate pw - f.q.inverse.rotate f.p).cross b) = v1
  generalize e.q.inverse.rotate (f.q.inverse.rotate w) = v2
  generalize e.q.inverse.rotate (f.q.inverse.rotate a) = v3
  generalize e.q.inverse.rotate c = v4
  apply Vec2.ext <;>
  simp only [projJac, Mat23.mulVec, Vec3.dot, Vec2.add_x, Vec2.add_y, Vec3.add_x, Vec3.add_y, Vec3.add_z, Vec3.sub_x, Vec3.sub_y, Vec3.sub_z, Vec3.neg_x, Vec3.neg_y, Vec3.neg_z,
    Vec3.cross_x, Vec3.cross_y, Vec3.cross_z, ScalarFn.lit_real, Rat.cast_one] <;>
  field_simp <;> ring

/-- Row sum over the first `n` columns. -/
theorem setB23_spec (a : DMat ℝ) (row col : Nat) (b : Mat23 ℝ) (h1 : row + 2 ≤ a.rows) (h2 : col + 3 ≤ a.cols) :
    ∃ a', setB23 a row col b = .ok a' ∧ a'.rows = a.rows ∧ a'.cols = a.cols ∧
      (∀ i < 2, ∀ y, (y < col ∨ col + 3 ≤ y) → a'.e (row + i) y = a.e (row + i) y) ∧
      (∀ x y, (x < row ∨ row + 2 ≤ x) → a'.e x y = a.e x y) ∧
      ∀ i < 2, (∀ y, col ≤ y → y < col + 3 → a.e (row + i) y = 0) → ∀ n (x : Nat → ℝ), col + 3 ≤ n →
        ∑ y ∈ Finset.range n, a'.e (row + i) y * x y =
          ∑ y ∈ Finset.range n, a.e (row + i) y * x y + (if i = 0 then b.r0 else b.r1).dot ⟨x col, x (col + 1), x (col + 2)⟩ := by
  obtain ⟨a', e1, e2, e3, e4⟩ := DMat.setBlock_spec (a := a) (i := row) (j := col) (r := 2) (c := 3) (b := ofMat23 b) h1 h2 rfl rfl
  refine ⟨a', e1, e2, e3, ?_, ?_, ?_⟩
  · intro i hi y hy
    rw [e4, if_neg (by omega)]
  · intro x y hx
    rw [e4, if_neg (by omega)]
  · intro i hi hz n x hn
    rw [← sub_eq_iff_eq_add', ← Finset.sum_sub_distrib]
    rw [← Finset.sum_subset (s₁ := {col, col + 1, col + 2})]
    · rw [Finset.sum_insert (by simp), Finset.sum_insert (by simp), Finset.sum_singleton]
      rw [hz col (by omega) (by omega), hz (col + 1) (by omega) (by omega), hz (col + 2) (by omega) (by omega)]
      rw [e4, e4, e4, if_pos (by omega), if_pos (by omega), if_pos (by omega)]
      simp only [ofMat23, Nat.add_sub_cancel_left, Nat.sub_self, Vec3.get]
      rcases (show i = 0 ∨ i = 1 by omega) with rfl | rfl <;> simp [Vec3.dot] <;> ring
    · intro y hy
      simp only [Finset.mem_insert, Finset.mem_singleton, Finset.mem_range] at hy ⊢
      omega
    · intro y hy hy'
      simp only [Finset.mem_insert, Finset.mem_singleton] at hy'
      rw [e4, if_neg (by omega)]
      ring

/-- The column layout: where the pose and extrinsic of an observation sit in the state, for a window of consecutive ids. -/
theorem poseCols_eq (nExt b n k : Nat) (hn : b + n ≤ two32) (hk : k < n) :
    poseCols nExt (b + k) b (b + (n - 1)) = if k = n - 1 then (3, 9) else (18 + nExt * 6 + k * 6, 18 + nExt * 6 + k * 6 + 3) := by
  unfold poseCols
  by_cases h : k = n - 1
  · rw [if_pos (by omega), if_pos h]
    rfl
  · rw [if_neg (by omega), if_neg h, sub32_of_le (by omega) (by unfold two32 at *; omega)]
    simp only [imuStateSize, Nat.add_sub_cancel_left]

/-- The rows of one observation, in full: written matrix, its row sums, residual, and the rows it leaves alone. -/
theorem measNorm_spec (m : FrameMgr ℝ T) (f : Frame ℝ T) (e : Extrinsic ℝ) (pw : Vec3 ℝ) (n : Vec2 ℝ) (b k c row : Nat) (a : DMat ℝ)
    (hb : b + m.frames.length ≤ two32) (hk : k < m.frames.length) (he : m.extrinsics[c]? = some e)
    (ha : a.cols = hxCols m + 4) (hrow : row + 2 ≤ a.rows) (h0 : ∀ i < 2, ∀ y, a.e (row + i) y = 0) (hz : 1 / 10000000000 < |(camPoint f e pw).z|) :
    ∃ a', measNorm m f (b + k) b (b + (m.frames.length - 1)) pw row a c n = .ok a' ∧ a'.rows = a.rows ∧ a'.cols = a.cols ∧
      (∀ x y, (x < row ∨ row + 2 ≤ x) → a'.e x y = a.e x y) ∧
      (∀ i < 2, a'.e (row + i) (hxCols m + 3) = if i = 0 then (residual f e pw n).x else (residual f e pw n).y) ∧
      ∀ i < 2, ∀ x : Nat → ℝ, ∑ y ∈ Finset.range (hxCols m + 3), a'.e (row + i) y * x y =
        (if i = 0 then (jacPw f e pw).r0 else (jacPw f e pw).r1).dot ⟨x 0, x 1, x 2⟩ +
        (if i = 0 then (jacPwb f e pw).r0 else (jacPwb f e pw).r1).dot
          (let o := if k = m.frames.length - 1 then 3 else 18 + m.extrinsics.length * 6 + k * 6; ⟨x o, x (o + 1), x (o + 2)⟩) +
        (if i = 0 then (jacRwb f e pw).r0 else (jacRwb f e pw).r1).dot
          (let o := if k = m.frames.length - 1 then 9 else 18 + m.extrinsics.length * 6 + k * 6 + 3; ⟨x o, x (o + 1), x (o + 2)⟩) +
        (if i = 0 then (jacPbc f e pw).r0 else (jacPbc f e pw).r1).dot (let o := 18 + c * 6; ⟨x o, x (o + 1), x (o + 2)⟩) +
        (if i = 0 then (jacRbc f e pw).r0 else (jacRbc f e pw).r1).dot (let o := 18 + c * 6 + 3; ⟨x o, x (o + 1), x (o + 2)⟩) := by
  have hc : c < m.extrinsics.length := by
    by_contra hc
    rw [List.getElem?_eq_none (by omega)] at he
    simp at he
  have hcols : hxCols m = 15 + m.extrinsics.length * 6 + (m.frames.length * 6 - 6) := rfl
  obtain ⟨pc, epc⟩ : ∃ pc, poseCols m.extrinsics.length (b + k) b (b + (m.frames.length - 1)) = pc := ⟨_, rfl⟩
  have epc' := poseCols_eq m.extrinsics.length b m.frames.length k hb hk
  rw [epc] at epc'
  have p1 : pc.1 = if k = m.frames.length - 1 then 3 else 18 + m.extrinsics.length * 6 + k * 6 := by rw [epc']; split <;> rfl
  have p2 : pc.2 = if k = m.frames.length - 1 then 9 else 18 + m.extrinsics.length * 6 + k * 6 + 3 := by rw [epc']; split <;> rfl
  rw [← p1, ← p2]
  have q1 : 3 ≤ pc.1 ∧ pc.1 + 3 ≤ hxCols m + 3 ∧ 3 ≤ pc.2 ∧ pc.2 + 3 ≤ hxCols m + 3 ∧ pc.1 + 3 ≤ pc.2 ∧
      (pc.2 + 3 ≤ 18 + c * 6 ∨ 18 + c * 6 + 6 ≤ pc.1) := by
    rw [p1, p2]
    split <;> omega
  obtain ⟨a1, s1, r1, c1, f1⟩ := DMat.setBlock_spec (a := a) (i := row) (j := a.cols - 1) (r := 2) (c := 1)
    (b := ⟨2, 1, fun i _ => if i = 0 then (residual f e pw n).x else (residual f e pw n).y⟩) hrow (by omega) rfl rfl
  obtain ⟨a2, s2, r2, c2, o2, l2, d2⟩ := setB23_spec a1 row 0 (jacPw f e pw) (by omega) (by omega)
  obtain ⟨a3, s3, r3, c3, o3, l3, d3⟩ := setB23_spec a2 row pc.1 (jacPwb f e pw) (by omega) (by omega)
  obtain ⟨a4, s4, r4, c4, o4, l4, d4⟩ := setB23_spec a3 row pc.2 (jacRwb f e pw) (by omega) (by omega)
  obtain ⟨a5, s5, r5, c5, o5, l5, d5⟩ := setB23_spec a4 row (18 + c * 6) (jacPbc f e pw) (by omega) (by omega)
  obtain ⟨a6, s6, r6, c6, o6, l6, d6⟩ := setB23_spec a5 row (18 + c * 6 + 3) (jacRbc f e pw) (by omega) (by omega)
  have z1 : ∀ i < 2, ∀ y < hxCols m + 3, a1.e (row + i) y = 0 := by
    intro i hi y hy
    rw [f1, if_neg (by omega), h0 i hi]
  have z2 : ∀ i < 2, ∀ y, 3 ≤ y → y < hxCols m + 3 → a2.e (row + i) y = 0 := by
    intro i hi y hy hy'
    rw [o2 i hi y (by omega), z1 i hi y hy']
  have z3 : ∀ i < 2, ∀ y, 3 ≤ y → y < hxCols m + 3 → (y < pc.1 ∨ pc.1 + 3 ≤ y) → a3.e (row + i) y = 0 := by
    intro i hi y hy hy' h
    rw [o3 i hi y h, z2 i hi y hy hy']
  have z4 : ∀ i < 2, ∀ y, 3 ≤ y → y < hxCols m + 3 → (y < pc.1 ∨ pc.1 + 3 ≤ y) → (y < pc.2 ∨ pc.2 + 3 ≤ y) → a4.e (row + i) y = 0 := by
    intro i hi y hy hy' h h'
    rw [o4 i hi y h', z3 i hi y hy hy' h]
  have z5 : ∀ i < 2, ∀ y, 18 + c * 6 + 3 ≤ y → y < 18 + c * 6 + 6 → a5.e (row + i) y = 0 := by
    intro i hi y hy hy'
    rw [o5 i hi y (by omega), z4 i hi y (by omega) (by omega) (by omega) (by omega)]
  refine ⟨a6, ?_, by omega, by omega, ?_, ?_, ?_⟩
  · unfold measNorm
    rw [idx, he]
    have ht : ScalarFn.lt (zeroTol : ℝ) (ScalarFn.fabs (camPoint f e pw).z) = true := by
      simp only [zeroTol, ScalarFn.lt_real, ScalarFn.fabs_real, ScalarFn.lit_real, decide_eq_true_eq]
      push_cast
      exact hz
    simp only [Res.bind_ok, ht, if_true, epc, imuStateSize]
    rw [s1, Res.bind_ok, s2, Res.bind_ok, s3, Res.bind_ok, s4, Res.bind_ok, s5, Res.bind_ok]
    exact s6
  · intro x y hx
    rw [l6 x y hx, l5 x y hx, l4 x y hx, l3 x y hx, l2 x y hx, f1, if_neg (by omega)]
  · intro i hi
    rw [o6 i hi _ (by omega), o5 i hi _ (by omega), o4 i hi _ (by omega), o3 i hi _ (by omega), o2 i hi _ (by omega), f1, if_pos (by omega)]
    simp only [Nat.add_sub_cancel_left]
  · intro i hi x
    rw [d6 i hi (fun y h1 h2 => z5 i hi y h1 (by omega)) _ x (by omega),
      d5 i hi (fun y h1 h2 => z4 i hi y (by omega) (by omega) (by omega) (by omega)) _ x (by omega),
      d4 i hi (fun y h1 h2 => z3 i hi y (by omega) (by omega) (by omega)) _ x (by omega),
      d3 i hi (fun y h1 h2 => z2 i hi y (by omega) (by omega)) _ x (by omega),
      d2 i hi (fun y h1 h2 => z1 i hi y (by omega)) _ x (by omega)]
    have : ∑ y ∈ Finset.range (hxCols m + 3), a1.e (row + i) y * x y = 0 := by
      apply Finset.sum_eq_zero
      intro y hy
      rw [z1 i hi y (by simpa using hy), zero_mul]
    rw [this, zero_add]

/-- C48.  A window of consecutive ids whose newest frame has the pose of the first queued IMU state, and an observation (normalised point `n` in camera `c`) by frame `k` of a
landmark with nonzero depth.  The two rows written for it hold the residual, and applied to any landmark error and any state error they give the derivative of the
predicted observation when the state is corrected in that direction by `UpdateState`. -/
theorem C48_rows (s : PropQueue ℝ T) (m : FrameMgr ℝ T) (fs : List (Frame ℝ T)) (l : Frame ℝ T) (i0 : PropItem ℝ T) (rest : List (PropItem ℝ T))
    (f : Frame ℝ T) (e : Extrinsic ℝ) (pw dw : Vec3 ℝ) (n : Vec2 ℝ) (b k c row : Nat) (a dx : DMat ℝ)
    (hi : s.items = i0 :: rest) (hfr : m.frames = fs ++ [l]) (hids : m.frames.map (·.id) = List.range' b m.frames.length) (hb : b + m.frames.length ≤ two32)
    (hl : l.p = i0.st.p ∧ l.q = i0.st.q)
    (hk : m.frames[k]? = some f) (he : m.extrinsics[c]? = some e) (hfu : f.q.sqNorm = 1) (heu : e.q.sqNorm = 1)
    (ha : a.cols = hxCols m + 4) (hrow : row + 2 ≤ a.rows) (h0 : ∀ i < 2, ∀ y, a.e (row + i) y = 0)
    (hz : 1 / 10000000000 < |camDepth f.q f.p e.q e.p pw|) (hd1 : dx.rows = hxCols m) (hd2 : dx.cols = 1) :
    ∃ a', measNorm m f f.id b l.id pw row a c n = .ok a' ∧ a'.rows = a.rows ∧ a'.cols = a.cols ∧
      (∀ x y, (x < row ∨ row + 2 ≤ x) → a'.e x y = a.e x y) ∧
      a'.e row (hxCols m + 3) = n.x - (predict f.q f.p e.q e.p pw).x ∧ a'.e (row + 1) (hxCols m + 3) = n.y - (predict f.q f.p e.q e.p pw).y ∧
      ∃ h : ℝ → Vec2 ℝ,
        (∀ t, ∃ s' m' f' e', correct (.smul t dx) s m = .ok (s', m') ∧ m'.frames[k]? = some f' ∧ m'.extrinsics[c]? = some e' ∧
          h t = predict f'.q f'.p e'.q e'.p (pw + .smul t dw)) ∧
        HasDeriv2 h ⟨rowApply a' row (hxCols m) dw (fun y => dx.e y 0), rowApply a' (row + 1) (hxCols m) dw (fun y => dx.e y 0)⟩ 0 := by
  have hlen : m.frames.length = fs.length + 1 := by rw [hfr]; simp
  have hkl : k < m.frames.length := by
    by_contra hc
    rw [List.getElem?_eq_none (by omega)] at hk
    simp at hk
  have hcl : c < m.extrinsics.length := by
    by_contra hc
    rw [List.getElem?_eq_none (by omega)] at he
    simp at he
  have hget : ∀ j g, m.frames[j]? = some g → g.id = b + j := by
    intro j g hg
    have hj : j < m.frames.length := by
      by_contra hc
      rw [List.getElem?_eq_none (by omega)] at hg
      simp at hg
    have : (m.frames.map (·.id))[j]? = some g.id := by rw [List.getElem?_map, hg]; rfl
    rw [hids, List.getElem?_range' hj] at this
    simp only [Option.some.injEq] at this
    omega
  have hfid := hget k f hk
  have hlid : l.id = b + (m.frames.length - 1) := by
    apply hget
    rw [hlen, hfr]
    simp
  have hnid : ∀ g ∈ fs, g.id ≠ l.id := by
    intro g hg
    obtain ⟨j, hj, rfl⟩ := List.getElem_of_mem hg
    have := hget j fs[j] (by rw [hfr, List.getElem?_append_left hj, List.getElem?_eq_getElem hj])
    omega
  have hcols : hxCols m = 15 + m.extrinsics.length * 6 + (m.frames.length * 6 - 6) := rfl
  have hcp : camPoint f e pw = e.q.inverse.rotate (f.q.inverse.rotate (pw - f.p) - e.p) := by
    simp only [camPoint, bodyPoint, Quat.toMat_mulVec]
  obtain ⟨a', g1, g2, g3, g4, g5, g6⟩ := measNorm_spec m f e pw n b k c row a hb hkl he ha hrow h0 (by rw [hcp]; exact hz)
  rw [hfid, hlid]
  refine ⟨a', g1, g2, g3, g4, ?_, ?_, ?_⟩
  · have := g5 0 (by omega)
    simp only [if_true] at this
    rw [Nat.add_zero] at this
    rw [this]
    simp only [residual, hcp, predict, Vec2.sub_x]
  · have := g5 1 (by omega)
    rw [this, if_neg (by omega)]
    simp only [residual, hcp, predict, Vec2.sub_y]
  -- the correction seen by frame and extrinsic
  obtain ⟨op, hop⟩ : ∃ op, op = if k = m.frames.length - 1 then 0 else 15 + m.extrinsics.length * 6 + k * 6 := ⟨_, rfl⟩
  obtain ⟨or', hor⟩ : ∃ o, o = if k = m.frames.length - 1 then 6 else 15 + m.extrinsics.length * 6 + k * 6 + 3 := ⟨_, rfl⟩
  have hseg : ∀ (t : ℝ) o, seg (.smul t dx) o = .smul t (seg dx o) := fun t o => rfl
  have hz' : camDepth f.q f.p e.q e.p pw ≠ 0 := by
    intro h
    rw [h, abs_zero] at hz
    norm_num at hz
  refine ⟨_, ?_, (C48_blocks f e pw (seg dx op) (seg dx or') (seg dx (15 + c * 6)) (seg dx (15 + c * 6 + 3)) dw hfu heu hz').congr ?_⟩
  · intro t
    have hcor := correct_eq (.smul t dx) s m i0 rest fs l hi hfr hnid hd2 (by show _ ≤ dx.rows; omega)
    obtain ⟨f', hf'⟩ : ∃ f' : Frame ℝ T, f' = { f with p := f.p + .smul t (seg dx op), q := corrQuat f.q (.smul t (seg dx or')), v := if k = m.frames.length - 1 then (motionAfter (.smul t dx) i0.st).v else f.v } := ⟨_, rfl⟩
    refine ⟨_, _, f', extAfter (.smul t dx) (15 + c * 6) e, hcor, ?_, ?_, ?_⟩
    · dsimp only
      rw [hf']
      by_cases hkn : k = m.frames.length - 1
      · have hfl : f = l := by
          rw [hkn, hlen, hfr] at hk
          simpa using hk.symm
        subst hfl
        have hk2 : k = fs.length := by omega
        rw [List.getElem?_append_right (by simp [hk2])]
        simp only [List.length_mapIdx, hk2, Nat.sub_self, List.getElem?_cons_zero, hop, hor, hlen, Nat.add_sub_cancel, if_true, motionAfter, hseg, hl.1, hl.2]
      · have hk2 : k < fs.length := by omega
        rw [List.getElem?_append_left (by simpa using hk2), List.getElem?_mapIdx]
        rw [hfr, List.getElem?_append_left hk2] at hk
        simp only [hk, Option.map_some, hop, hor, if_neg hkn, frameAfter, hseg]
    · simp only [List.getElem?_mapIdx, he, Option.map_some]
    · simp only [hf', extAfter, hseg]
  · -- the row sums
    obtain ⟨X, hX⟩ : ∃ X : Nat → ℝ, ∀ y, X y = if y < 3 then dw.get y else dx.e (y - 3) 0 := ⟨_, fun _ => rfl⟩
    have hsplit : ∀ i < 2, rowApply a' (row + i) (hxCols m) dw (fun y => dx.e y 0) = ∑ y ∈ Finset.range (hxCols m + 3), a'.e (row + i) y * X y := by
      intro i hi
      rw [Nat.add_comm (hxCols m) 3, Finset.sum_range_add, rowApply]
      refine congrArg₂ (· + ·) ?_ ?_
      · apply Finset.sum_congr rfl
        intro y hy
        have : y < 3 := by simpa using hy
        rw [hX, if_pos this]
      · apply Finset.sum_congr rfl
        intro y hy
        rw [hX, if_neg (by omega), Nat.add_sub_cancel_left]
    have h00 := hsplit 0 (by omega)
    have h01 := hsplit 1 (by omega)
    rw [g6 0 (by omega) X] at h00
    rw [g6 1 (by omega) X] at h01
    rw [Nat.add_zero] at h00
    rw [h00, h01]
    have w0 : (⟨X 0, X 1, X 2⟩ : Vec3 ℝ) = dw := by
      apply Vec3.ext <;> simp [Vec3.get, hX]
    have wo : ∀ o o', o = o' + 3 → (⟨X o, X (o + 1), X (o + 2)⟩ : Vec3 ℝ) = seg dx o' := by
      intro o o' ho
      simp only [seg, hX]
      rw [if_neg (by omega), if_neg (by omega), if_neg (by omega)]
      have e1 : o - 3 = o' := by omega
      have e2 : o + 1 - 3 = o' + 1 := by omega
      have e3 : o + 2 - 3 = o' + 2 := by omega
      rw [e1, e2, e3]
    have i1 : (if k = m.frames.length - 1 then 3 else 18 + m.extrinsics.length * 6 + k * 6) = op + 3 := by rw [hop]; split <;> omega
    have i2 : (if k = m.frames.length - 1 then 9 else 18 + m.extrinsics.length * 6 + k * 6 + 3) = or' + 3 := by rw [hor]; split <;> omega
    simp only [i1, i2]
    rw [w0, wo (op + 3) op rfl, wo (or' + 3) or' rfl, wo (18 + c * 6) (15 + c * 6) (by omega), wo (18 + c * 6 + 3) (15 + c * 6 + 3) (by omega)]
    apply Vec2.ext <;> simp [Mat23.mulVec]

/-- C48: a frame at the origin, one camera, a point two metres ahead and a queued item at the pose of the newest frame. -/
example (dx : DMat ℝ) (h1 : dx.rows = 27) (h2 : dx.cols = 1) :
    let f : Frame ℝ ℝ := ⟨0, [], .one, 0, 0, 4, 1⟩
    let m : FrameMgr ℝ ℝ := ⟨[⟨1, [], .one, 0, 0, 3, 0⟩, f], 2, [⟨.one, 0⟩], 4, 0, 0, 1⟩
    let s : PropQueue ℝ ℝ := { (PropQueue.init ⟨0, 0, .one⟩ : PropQueue ℝ ℝ) with items := [⟨⟨0, 0, .one⟩, .zero 15 15, .zero 15 12, 0, 0, 1⟩] }
    ∃ a', measNorm m f 4 3 4 ⟨0, 0, 2⟩ 0 (.zero 2 31) 0 ⟨1, 1⟩ = .ok a' ∧ a'.e 0 30 = 1 - (predict .one (0 : Vec3 ℝ) .one 0 ⟨0, 0, 2⟩).x := by
  intro f m s
  have hz : (1 : ℝ) / 10000000000 < |camDepth .one (0 : Vec3 ℝ) .one 0 ⟨0, 0, 2⟩| := by
    simp [camDepth, Quat.inverse, Quat.one, Quat.rotate, Quat.sqNorm, Quat.vec]
    norm_num
  obtain ⟨a', h, -, -, -, hr, -⟩ := C48_rows s m [⟨1, [], .one, 0, 0, 3, 0⟩] f ⟨⟨0, 0, .one⟩, .zero 15 15, .zero 15 12, 0, 0, 1⟩ [] f ⟨.one, 0⟩ ⟨0, 0, 2⟩ 0 ⟨1, 1⟩ 3 1 0 0
    (.zero 2 31) dx rfl rfl rfl (by decide) ⟨rfl, rfl⟩ rfl rfl (by simp [f, Quat.sqNorm, Quat.one]) (by simp [Quat.sqNorm, Quat.one]) rfl (by decide)
    (fun _ _ _ => rfl) hz h1 h2
  exact ⟨a', h, hr⟩

end Update
end Vio
