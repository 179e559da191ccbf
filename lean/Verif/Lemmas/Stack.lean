/-
The stacked measurement equation: its `Hᵀ H` and `Hᵀ r` are sums over the features, and the null space projection of a feature gives the same ones for every QR decomposition when the
landmark columns have full rank.
-/
import Verif.Lemmas.Gram
import Verif.Props.Select

set_option linter.unusedSectionVars false

namespace Vio
open Spec Matrix WinSpec

variable {T : Type} [TimeOps T] [TimeCast T ℝ]

namespace Update

/-- Inner product of two columns. -/
def gramAt (p : DMat ℝ) (i j : Nat) : ℝ := ∑ x ∈ Finset.range p.rows, p.e x i * p.e x j

theorem gram_mul (a : DMat ℝ) (n : Nat) : (a.toM a.rows n)ᵀ * a.toM a.rows n = Matrix.of fun (i j : Fin n) => gramAt a i j := by
  ext i j
  simp only [Matrix.mul_apply, gramAt, Matrix.of_apply, Matrix.transpose_apply, DMat.toM]
  rw [← Finset.sum_range (fun x => a.e x i * a.e x j)]

theorem gram_res (a : DMat ℝ) (n : Nat) :
    (a.toM a.rows n)ᵀ * (Matrix.of fun (i : Fin a.rows) (_ : Fin 1) => a.e i n) = Matrix.of fun (i : Fin n) (_ : Fin 1) => gramAt a i n := by
  ext i j
  simp only [Matrix.mul_apply, gramAt, Matrix.of_apply, Matrix.transpose_apply, DMat.toM]
  rw [← Finset.sum_range (fun x => a.e x i * a.e x n)]

/-- The projected equation of a feature, when there is one. -/
noncomputable def featEq (ext : Ext ℝ) (w : Win ℝ T) (r : Nat) : DMat ℝ :=
  match measFeature ext w.frm (w.feat.heap r) with
  | .ok (some p) => p
  | _ => .zero 0 0

theorem stack_gram (ext : Ext ℝ) (w : Win ℝ T) (b : Nat) (hw : WinOk w.frm b) (fs : List Nat) (hok : ∀ r ∈ fs, FeatOk w.frm (w.feat.heap r))
    (hlt : startRow w fs fs.length < two32) :
    ∃ a, stackLoop ext w 0 (.zero (hxRows w fs) (hxCols w.frm + 1)) fs = .ok (some a) ∧ a.cols = hxCols w.frm + 1 ∧
      ∀ i j, i < a.cols → j < a.cols → gramAt a i j = (fs.map (fun r => gramAt (featEq ext w r) i j)).sum := by
  obtain ⟨a, h1, h2, h3, h4⟩ := C51_stack ext w b hw fs hok hlt
  refine ⟨a, h1, h3, fun i j hi hj => ?_⟩
  have key : ∀ k, k ≤ fs.length → ∑ x ∈ Finset.range (startRow w fs k), a.e x i * a.e x j = ((fs.take k).map (fun r => gramAt (featEq ext w r) i j)).sum := by
    intro k
    induction k with
    | zero => intro _; simp [startRow]
    | succ k ih =>
      intro hk
      obtain ⟨r, hr⟩ : ∃ r, fs[k]? = some r := ⟨fs[k], List.getElem?_eq_getElem (by omega)⟩
      obtain ⟨s1, p, p1, p2, -, p4⟩ := h4 k r hr
      rw [s1, Finset.sum_range_add, ih (by omega), List.take_add_one, hr]
      simp only [Option.toList_some, List.map_append, List.map_cons, List.map_nil, List.sum_append, List.sum_cons, List.sum_nil, add_zero]
      congr 1
      have hf : featEq ext w r = p := by unfold featEq; rw [p1]
      rw [hf, gramAt, p2]
      apply Finset.sum_congr rfl
      intro x hx
      have hx' : x < p.rows := by rw [p2]; exact Finset.mem_range.1 hx
      rw [p4 x i hx' hi, p4 x j hx' hj]
  have := key fs.length le_rfl
  rw [List.take_length] at this
  rw [gramAt, h2, this]

theorem measure_gram (env : Env ℝ) (hext : GoodExt env.ext) (w : Win ℝ T) (b : Nat) (hw : WinOk w.frm b) (fs : List Nat) (hok : ∀ r ∈ fs, FeatOk w.frm (w.feat.heap r))
    (hlt : startRow w fs fs.length < two32) :
    ∃ hxr, measure env w fs = .ok (some hxr) ∧ hxr.cols = hxCols w.frm + 1 ∧
      (hxr.toM hxr.rows (hxCols w.frm))ᵀ * hxr.toM hxr.rows (hxCols w.frm) = Matrix.of (fun (i j : Fin (hxCols w.frm)) => (fs.map (fun r => gramAt (featEq env.ext w r) i j)).sum) ∧
      (hxr.toM hxr.rows (hxCols w.frm))ᵀ * (Matrix.of fun (i : Fin hxr.rows) (_ : Fin 1) => hxr.e i (hxCols w.frm)) =
        Matrix.of (fun (i : Fin (hxCols w.frm)) (_ : Fin 1) => (fs.map (fun r => gramAt (featEq env.ext w r) i (hxCols w.frm))).sum) := by
  obtain ⟨a, a1, a2, a3⟩ := stack_gram env.ext w b hw fs hok hlt
  obtain ⟨hxr, c1, c2, c3, c4⟩ := compress_gram env hext a (hxCols w.frm) a2
  refine ⟨hxr, ?_, c2, ?_, ?_⟩
  · unfold measure
    rw [a1, Res.bind_ok]
    dsimp only
    rw [c1, Res.bind_ok]
  · rw [c3, gram_mul]
    ext i j
    exact a3 i j (by omega) (by omega)
  · rw [c4, gram_res]
    ext i j
    exact a3 i _ (by omega) (by omega)

theorem startRow_perm (w : Win ℝ T) (fs fs' : List Nat) (h : fs.Perm fs') : startRow w fs fs.length = startRow w fs' fs'.length := by
  unfold startRow
  rw [List.take_length, List.take_length]
  exact (h.map _).sum_eq

/-- The Kalman step on the same features in another order, with other decompositions as long as they give the same inner products for every feature. -/
theorem kalman_perm (env env' : Env ℝ) (hext : GoodExt env.ext) (hext' : GoodExt env'.ext) (noise : ℝ) (P P' : DMat ℝ) (w : Win ℝ T) (b : Nat) (hw : WinOk w.frm b) (fs fs' : List Nat)
    (hok : ∀ r ∈ fs, FeatOk w.frm (w.feat.heap r)) (hlt : startRow w fs fs.length < two32) (h1 : P.rows = hxCols w.frm) (h2 : P.cols = hxCols w.frm)
    (h3 : P'.rows = hxCols w.frm) (h4 : P'.cols = hxCols w.frm) (hPP : ∀ i j, i < hxCols w.frm → j < hxCols w.frm → P.e i j = P'.e i j)
    (hP : SymmTo (hxCols w.frm) P.e) (hperm : fs.Perm fs')
    (hfeat : ∀ r ∈ fs, ∀ i j, i ≤ hxCols w.frm → j ≤ hxCols w.frm → gramAt (featEq env.ext w r) i j = gramAt (featEq env'.ext w r) i j) :
    ∃ hxr hxr' k k', measure env w fs = .ok (some hxr) ∧ measure env' w fs' = .ok (some hxr') ∧ kalman env.ext noise P hxr = .ok k ∧ kalman env'.ext noise P' hxr' = .ok k' ∧
      k.dx.rows = hxCols w.frm ∧ k'.dx.rows = hxCols w.frm ∧ k.dx.cols = 1 ∧ k'.dx.cols = 1 ∧
      k.cov.rows = hxCols w.frm ∧ k'.cov.rows = hxCols w.frm ∧ k.cov.cols = hxCols w.frm ∧ k'.cov.cols = hxCols w.frm ∧
      (∀ i, i < hxCols w.frm → k.dx.e i 0 = k'.dx.e i 0) ∧ ∀ i j, i < hxCols w.frm → j < hxCols w.frm → k.cov.e i j = k'.cov.e i j := by
  obtain ⟨a, a1, a2, a3, a4⟩ := measure_gram env hext w b hw fs hok hlt
  obtain ⟨c, c1, c2, c3, c4⟩ := measure_gram env' hext' w b hw fs' (fun r hr => hok r (hperm.mem_iff.2 hr)) (by rw [← startRow_perm w fs fs' hperm]; exact hlt)
  have hsum : ∀ i j, i ≤ hxCols w.frm → j ≤ hxCols w.frm → (fs.map (fun r => gramAt (featEq env.ext w r) i j)).sum = (fs'.map (fun r => gramAt (featEq env'.ext w r) i j)).sum := by
    intro i j hi hj
    rw [← (hperm.map _).sum_eq]
    congr 1
    exact List.map_congr_left (fun r hr => hfeat r hr i j hi hj)
  have hPt : (P.toM (hxCols w.frm) (hxCols w.frm))ᵀ = P.toM (hxCols w.frm) (hxCols w.frm) := by
    ext i j
    exact hP j i j.2 i.2
  obtain ⟨k, k', k1, k2, k3, k4, k5, k6, k7, k8, k9, k10, k11, k12⟩ := kalman_gram env.ext env'.ext hext hext' noise P P' a c (hxCols w.frm) h1 h2 h3 h4
    (by ext i j; exact (hPP i j i.2 j.2).symm) hPt a2 c2
    (by rw [a3, c3]; ext i j; exact hsum i j i.2.le j.2.le) (by rw [a4, c4]; ext i j; exact hsum i _ i.2.le le_rfl)
  refine ⟨a, c, k, k', a1, c1, k1, k2, k3, k4, k5, k6, k7, k8, k9, k10, fun i hi => ?_, fun i j hi hj => ?_⟩
  · exact congrFun (congrFun k11 ⟨i, hi⟩) 0
  · exact congrFun (congrFun k12 ⟨i, hi⟩) ⟨j, hj⟩

/-! ### The null space projection -/

/-- Orthonormal rows that span the left null space of a matrix of full column rank form the same projector. -/
theorem null_projector {m : Nat} (Hf : Matrix (Fin (m + 3)) (Fin 3) ℝ) (M : Matrix (Fin 3) (Fin 3) ℝ) (hM : M * (Hfᵀ * Hf) = 1) (N : Matrix (Fin m) (Fin (m + 3)) ℝ) (h1 : N * Nᵀ = 1)
    (h2 : N * Hf = 0) : Nᵀ * N = 1 - Hf * M * Hfᵀ := by
  have hM2 : (Hfᵀ * Hf) * M = 1 := mul_eq_one_comm.1 hM
  have hMt : Mᵀ = M := by
    have h5 : (Hfᵀ * Hf) * Mᵀ = 1 := by
      have := congrArg Matrix.transpose hM
      rwa [Matrix.transpose_mul, Matrix.transpose_mul, Matrix.transpose_transpose, Matrix.transpose_one] at this
    calc Mᵀ = M * (Hfᵀ * Hf) * Mᵀ := by rw [hM, Matrix.one_mul]
      _ = M := by rw [Matrix.mul_assoc, h5, Matrix.mul_one]
  set Q : Matrix (Fin (m + 3)) (Fin (m + 3)) ℝ := 1 - Hf * M * Hfᵀ with hQ
  have hQt : Qᵀ = Q := by
    rw [hQ]
    simp only [Matrix.transpose_sub, Matrix.transpose_one, Matrix.transpose_mul, Matrix.transpose_transpose, hMt, Matrix.mul_assoc]
  have hQQ : Q * Q = Q := by
    have : Hf * M * Hfᵀ * (Hf * M * Hfᵀ) = Hf * M * Hfᵀ := by
      calc Hf * M * Hfᵀ * (Hf * M * Hfᵀ) = Hf * M * ((Hfᵀ * Hf) * M) * Hfᵀ := by simp only [Matrix.mul_assoc]
        _ = _ := by rw [hM2, Matrix.mul_one]
    rw [hQ, Matrix.sub_mul, Matrix.mul_sub, Matrix.mul_sub, this]
    simp
  have hNQ : N * Q = N := by
    rw [hQ, Matrix.mul_sub, Matrix.mul_one, ← Matrix.mul_assoc, ← Matrix.mul_assoc, h2]
    simp
  have hEQ : Nᵀ * N * Q = Nᵀ * N := by rw [Matrix.mul_assoc, hNQ]
  have hQE : Q * (Nᵀ * N) = Nᵀ * N := by
    have := congrArg Matrix.transpose hEQ
    rwa [Matrix.transpose_mul, hQt, Matrix.transpose_mul, Matrix.transpose_transpose] at this
  have hEE : Nᵀ * N * (Nᵀ * N) = Nᵀ * N := by
    calc Nᵀ * N * (Nᵀ * N) = Nᵀ * (N * Nᵀ) * N := by simp only [Matrix.mul_assoc]
      _ = _ := by rw [h1, Matrix.mul_one]
  clear_value Q
  have hD : (Q - Nᵀ * N)ᵀ * (Q - Nᵀ * N) = Q - Nᵀ * N := by
    rw [Matrix.transpose_sub, hQt, Matrix.transpose_mul, Matrix.transpose_transpose, Matrix.sub_mul, Matrix.mul_sub, Matrix.mul_sub, hQQ, hQE, hEQ, hEE]
    simp
  have htr : (Q - Nᵀ * N).trace = 0 := by
    rw [Matrix.trace_sub, Matrix.trace_mul_comm, h1, hQ, Matrix.trace_sub, Matrix.trace_one, Matrix.trace_one, Matrix.mul_assoc, Matrix.trace_mul_comm, Matrix.mul_assoc, hM, Matrix.trace_one]
    simp
  have hz : Q - Nᵀ * N = 0 := by
    have h3 : ((Q - Nᵀ * N)ᵀ * (Q - Nᵀ * N)).trace = 0 := by rw [hD, htr]
    rw [← Matrix.conjTranspose_eq_transpose_of_trivial] at h3
    exact Matrix.trace_conjTranspose_mul_self_eq_zero_iff.1 h3
  exact (sub_eq_zero.1 hz).symm

/-- C85, one feature.  Two QR decompositions give projected equations with the same inner products of columns, if the three landmark columns are linearly independent. -/
theorem C85_projection (ext ext' : Ext ℝ) (a : DMat ℝ) (m c : Nat) (hr : a.rows = m + 3) (hc : a.cols = c + 3) (hq : ∀ h : DMat ℝ, h.rows = m + 3 → IsQR h (ext.qrQ h))
    (hq' : ∀ h : DMat ℝ, h.rows = m + 3 → IsQR h (ext'.qrQ h)) (hrank : ((a.toM (m + 3) 3)ᵀ * a.toM (m + 3) 3).det ≠ 0) :
    ∃ b b', project ext a = .ok b ∧ project ext' a = .ok b' ∧ b.rows = m ∧ b'.rows = m ∧ b.cols = c ∧ b'.cols = c ∧
      ∀ i j, i < c → j < c → gramAt b i j = gramAt b' i j := by
  obtain ⟨b, N, b1, b2, b3, b4, b5, b6⟩ := C46_projection ext a m c hr hc hq
  obtain ⟨b', N', c1, c2, c3, c4, c5, c6⟩ := C46_projection ext' a m c hr hc hq'
  refine ⟨b, b', b1, c1, b2, c2, b3, c3, fun i j hi hj => ?_⟩
  have hM := Matrix.nonsing_inv_mul _ (isUnit_iff_ne_zero.2 hrank)
  have e1 := null_projector _ _ hM N b4 b5
  have e2 := null_projector _ _ hM N' c4 c5
  have e3 : (b.toM b.rows c)ᵀ * b.toM b.rows c = (b'.toM b'.rows c)ᵀ * b'.toM b'.rows c := by
    rw [b2, c2, b6, c6, Matrix.transpose_mul, Matrix.transpose_mul]
    calc _ = (Matrix.of fun (i : Fin (m + 3)) (j : Fin c) => a.e i (3 + j))ᵀ * (Nᵀ * N) * (Matrix.of fun (i : Fin (m + 3)) (j : Fin c) => a.e i (3 + j)) := by simp only [Matrix.mul_assoc]
      _ = _ := by rw [e1, ← e2]; simp only [Matrix.mul_assoc]
  rw [gram_mul, gram_mul] at e3
  exact congrFun (congrFun e3 ⟨i, hi⟩) ⟨j, hj⟩

/-- The landmark columns of a feature's measurement equation are linearly independent. -/
def LandmarkRank (m : FrameMgr ℝ T) (ft : Feature ℝ) : Prop :=
  ∀ a, measLoop m ft 0 0 (.zero (mul32 ft.observeNum 2) (hxCols m + 4)) ft.observes = .ok (some a) → ((a.toM a.rows 3)ᵀ * a.toM a.rows 3).det ≠ 0

theorem featEq_gram (ext ext' : Ext ℝ) (hext : GoodExt ext) (hext' : GoodExt ext') (w : Win ℝ T) (b : Nat) (hw : WinOk w.frm b) (r : Nat) (hok : FeatOk w.frm (w.feat.heap r))
    (hrank : LandmarkRank w.frm (w.feat.heap r)) (i j : Nat) (hi : i ≤ hxCols w.frm) (hj : j ≤ hxCols w.frm) : gramAt (featEq ext w r) i j = gramAt (featEq ext' w r) i j := by
  obtain ⟨e1, e2⟩ := subRows_eq hok
  obtain ⟨g, hg⟩ : ∃ g, w.frm.frames.head? = some g := ⟨_, List.head?_eq_some_head hw.ne⟩
  obtain ⟨l, hl⟩ : ∃ l, w.frm.frames.getLast? = some l := ⟨_, List.getLast?_eq_some_getLast hw.ne⟩
  have hm : mul32 (w.feat.heap r).observeNum 2 = 2 * totalObs (w.feat.heap r).observes := by
    have := hok.lt
    rw [hok.num, mul32_of_lt (by omega)]; omega
  obtain ⟨a, m1, m2, m3, -⟩ := measLoop_spec w.frm (w.feat.heap r) b g l hw.ids hw.lt hg hl (w.feat.heap r).observes 0 0
    (.zero (mul32 (w.feat.heap r).observeNum 2) (hxCols w.frm + 4)) hok.res rfl (by simp [hm]) (fun _ _ _ => rfl)
  simp only [DMat.zero_rows, DMat.zero_cols] at m2 m3
  have h2 := hok.two
  obtain ⟨m, hr⟩ : ∃ m, a.rows = m + 3 := ⟨a.rows - 3, by omega⟩
  have hdet := hrank a m1
  rw [hr] at hdet
  obtain ⟨p, p', q1, q2, -, -, -, -, q3⟩ := C85_projection ext ext' a m (hxCols w.frm + 1) hr (by omega) (fun h _ => hext.qr h) (fun h _ => hext'.qr h) hdet
  have f1 : ∀ (e : Ext ℝ) (p : DMat ℝ), project e a = .ok p → featEq e w r = p := by
    intro e p hp
    unfold featEq measFeature
    rw [m1, Res.bind_ok]
    dsimp only
    rw [hp, Res.bind_ok]
  rw [f1 ext p q1, f1 ext' p' q2]
  exact q3 i j (by omega) (by omega)

end Update
end Vio
