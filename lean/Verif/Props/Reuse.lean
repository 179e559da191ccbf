/-
Property C125: whether an observation informs the filter once.
-/
import Verif.Props.KalmanOpt
import Verif.Props.Safety
import Mathlib.LinearAlgebra.Matrix.PosDef

set_option linter.unusedSectionVars false

namespace Vio
namespace Update

open Matrix Spec

/-! ### What repeated use of one measurement does to the covariance -/

/-- The covariance after the Kalman step has been done `k` times with the same measurement. -/
noncomputable def again (ext : Ext ℝ) (noise : ℝ) (hxr : DMat ℝ) : Nat → DMat ℝ → Res (DMat ℝ)
  | 0, P => .ok P
  | k + 1, P => do
    let P ← again ext noise hxr k P
    let r ← kalman ext noise P hxr
    .ok r.cov

/-- One more use of the measurement, in matrices. -/
theorem again_step {n m : Nat} (P : Matrix (Fin n) (Fin n) ℝ) (H : Matrix (Fin m) (Fin n) ℝ) (R k : ℝ) (hR : R ≠ 0) (Y Z X : Matrix (Fin m) (Fin m) ℝ)
    (y1 : Y * (k • (H * (P * Hᵀ)) + R • 1) = 1) (y2 : (k • (H * (P * Hᵀ)) + R • 1) * Y = 1)
    (z2 : ((k + 1) • (H * (P * Hᵀ)) + R • 1) * Z = 1)
    (Pk : Matrix (Fin n) (Fin n) ℝ) (hk : Pk = P - k • (P * Hᵀ * Y * (H * P))) (hX : X * (H * (Pk * Hᵀ) + R • 1) = 1) :
    (1 - Pk * Hᵀ * X * H) * Pk = P - (k + 1) • (P * Hᵀ * Z * (H * P)) := by
  set M := H * (P * Hᵀ) with hM
  have y3 : k • (M * Y) = 1 - R • Y := by
    rw [Matrix.add_mul, Matrix.smul_mul, Matrix.smul_mul, Matrix.one_mul] at y2
    exact eq_sub_of_add_eq y2
  have y4 : k • (Y * M) = 1 - R • Y := by
    rw [Matrix.mul_add, Matrix.mul_smul, Matrix.mul_smul, Matrix.mul_one] at y1
    exact eq_sub_of_add_eq y1
  have hHP : H * Pk = R • (Y * (H * P)) := by
    have : H * Pk = (1 - k • (M * Y)) * (H * P) := by
      rw [hk, hM, Matrix.mul_sub, Matrix.sub_mul, Matrix.one_mul, Matrix.mul_smul, Matrix.smul_mul]
      simp only [Matrix.mul_assoc]
    rw [this, y3, sub_sub_cancel, Matrix.smul_mul]
  have hPH : Pk * Hᵀ = R • (P * Hᵀ * Y) := by
    have : Pk * Hᵀ = P * Hᵀ * (1 - k • (Y * M)) := by
      rw [hk, hM, Matrix.sub_mul, Matrix.mul_sub, Matrix.mul_one, Matrix.mul_smul, Matrix.smul_mul]
      simp only [Matrix.mul_assoc]
    rw [this, y4, sub_sub_cancel, Matrix.mul_smul]
  have hMk : H * (Pk * Hᵀ) = R • (Y * M) := by
    rw [← Matrix.mul_assoc, hHP, Matrix.smul_mul, hM]
    simp only [Matrix.mul_assoc]
  have hA : (k + 1) • M + R • (1 : Matrix (Fin m) (Fin m) ℝ) = M + (k • M + R • 1) := by
    rw [add_smul, one_smul]; abel
  have hS : H * (Pk * Hᵀ) + R • 1 = R • (Y * ((k + 1) • M + R • 1)) := by
    rw [hMk, hA, Matrix.mul_add, y1, smul_add]
  have hXe : X = R⁻¹ • (Z * (k • M + R • 1)) := by
    have h1 : (H * (Pk * Hᵀ) + R • 1) * (R⁻¹ • (Z * (k • M + R • 1))) = 1 := by
      rw [hS, Matrix.smul_mul, Matrix.mul_smul, smul_smul, mul_inv_cancel₀ hR, one_smul]
      calc Y * ((k + 1) • M + R • 1) * (Z * (k • M + R • 1)) = Y * (((k + 1) • M + R • 1) * Z) * (k • M + R • 1) := by simp only [Matrix.mul_assoc]
        _ = 1 := by rw [z2, Matrix.mul_one, y1]
    calc X = X * ((H * (Pk * Hᵀ) + R • 1) * (R⁻¹ • (Z * (k • M + R • 1)))) := by rw [h1, Matrix.mul_one]
      _ = _ := by rw [← Matrix.mul_assoc, hX, Matrix.one_mul]
  have hcore : (k + 1) • Z - k • Y = R • (Y * Z) := by
    have e1 : (k + 1) • ((k • M + R • 1) * Z) - k • (1 : Matrix (Fin m) (Fin m) ℝ) = R • Z := by
      have : (k • M + R • (1 : Matrix (Fin m) (Fin m) ℝ)) * Z = 1 - M * Z := by
        have := z2
        rw [hA, Matrix.add_mul] at this
        exact eq_sub_of_add_eq' this
      have h3 : (k + 1) • (M * Z) = 1 - R • Z := by
        rw [Matrix.add_mul, Matrix.smul_mul, Matrix.smul_mul, Matrix.one_mul] at z2
        exact eq_sub_of_add_eq z2
      rw [this, smul_sub, h3, add_smul, one_smul]
      abel
    calc (k + 1) • Z - k • Y = Y * ((k + 1) • ((k • M + R • 1) * Z) - k • 1) := by
          rw [Matrix.mul_sub, Matrix.mul_smul, Matrix.mul_smul, Matrix.mul_one, ← Matrix.mul_assoc, y1, Matrix.one_mul]
      _ = _ := by rw [e1, Matrix.mul_smul]
  have hcorr : Pk * Hᵀ * X * (H * Pk) = R • (P * Hᵀ * (Y * Z) * (H * P)) := by
    rw [hPH, hXe, hHP]
    simp only [Matrix.smul_mul, Matrix.mul_smul, smul_smul]
    have : R * (R⁻¹ * R) = R := by field_simp
    rw [this]
    congr 1
    calc P * Hᵀ * Y * (Z * (k • M + R • 1)) * (Y * (H * P)) = P * Hᵀ * (Y * Z) * ((k • M + R • 1) * Y) * (H * P) := by simp only [Matrix.mul_assoc]
      _ = _ := by rw [y2, Matrix.mul_one]
  calc (1 - Pk * Hᵀ * X * H) * Pk = Pk - Pk * Hᵀ * X * (H * Pk) := by
        rw [Matrix.sub_mul, Matrix.one_mul]; simp only [Matrix.mul_assoc]
    _ = P - (k • (P * Hᵀ * Y * (H * P)) + R • (P * Hᵀ * (Y * Z) * (H * P))) := by rw [hcorr, hk]; abel
    _ = P - (k + 1) • (P * Hᵀ * Z * (H * P)) := by
        congr 1
        have : R • (P * Hᵀ * (Y * Z) * (H * P)) = P * Hᵀ * (R • (Y * Z)) * (H * P) := by rw [Matrix.mul_smul, Matrix.smul_mul]
        rw [this, ← hcore, Matrix.mul_sub, Matrix.sub_mul, Matrix.mul_smul, Matrix.mul_smul, Matrix.smul_mul, Matrix.smul_mul]
        abel

/-- `k M + R` has an inverse for `M` positive semidefinite. -/
theorem shifted_inverse {m : Nat} (M : Matrix (Fin m) (Fin m) ℝ) (hM : M.PosSemidef) (k R : ℝ) (hk : 0 ≤ k) (hR : 0 < R) :
    ∃ Y : Matrix (Fin m) (Fin m) ℝ, Y * (k • M + R • 1) = 1 ∧ (k • M + R • 1) * Y = 1 := by
  have h : (k • M + R • (1 : Matrix (Fin m) (Fin m) ℝ)).PosDef := (Matrix.PosDef.one.smul hR).posSemidef_add (hM.smul hk)
  have hu := (Matrix.isUnit_iff_isUnit_det _).1 h.isUnit
  exact ⟨(k • M + R • 1)⁻¹, Matrix.nonsing_inv_mul _ hu, Matrix.mul_nonsing_inv _ hu⟩

/-- C125, the effect: `k` uses of the same measurement, with matrix `H` and noise variance `R`, give the covariance `P - k P Hᵀ (k H P Hᵀ + R)⁻¹ H P`. -/
theorem C125_repeated (ext : Ext ℝ) (hext : GoodExt ext) (noise : ℝ) (hn : 1 / 10000000000 < noise * noise) (P hxr : DMat ℝ) (n m : Nat) (h1 : P.rows = n) (h2 : P.cols = n)
    (h3 : hxr.rows = m) (h4 : hxr.cols = n + 1) (hP : (P.toM n n).PosSemidef) (k : Nat) :
    ∃ (Pk : DMat ℝ) (Y : Matrix (Fin m) (Fin m) ℝ), again ext noise hxr k P = .ok Pk ∧ Pk.rows = n ∧ Pk.cols = n ∧ (Pk.toM n n).PosSemidef ∧
      Y * ((k : ℝ) • (hxr.toM m n * (P.toM n n * (hxr.toM m n)ᵀ)) + (noise * noise) • 1) = 1 ∧
      ((k : ℝ) • (hxr.toM m n * (P.toM n n * (hxr.toM m n)ᵀ)) + (noise * noise) • 1) * Y = 1 ∧
      Pk.toM n n = P.toM n n - (k : ℝ) • (P.toM n n * (hxr.toM m n)ᵀ * Y * (hxr.toM m n * P.toM n n)) := by
  have hR : 0 < noise * noise := lt_trans (by norm_num) hn
  have hM : (hxr.toM m n * (P.toM n n * (hxr.toM m n)ᵀ)).PosSemidef := by
    have q := hP.mul_mul_conjTranspose_same (hxr.toM m n)
    rwa [Matrix.conjTranspose_eq_transpose_of_trivial, Matrix.mul_assoc] at q
  have hPt : (P.toM n n)ᵀ = P.toM n n := by
    have := hP.isHermitian
    rwa [Matrix.IsHermitian, Matrix.conjTranspose_eq_transpose_of_trivial] at this
  induction k with
  | zero =>
    obtain ⟨Y, y1, y2⟩ := shifted_inverse _ hM 0 _ le_rfl hR
    exact ⟨P, Y, rfl, h1, h2, hP, by simpa using y1, by simpa using y2, by simp⟩
  | succ k ih =>
    obtain ⟨Pk, Y, e, r1, r2, r3, y1, y2, hk⟩ := ih
    obtain ⟨Z, z1, z2⟩ := shifted_inverse _ hM ((k : ℝ) + 1) _ (by positivity) hR
    obtain ⟨q, X, hq, -, -, x1, -, hg, hcov, -⟩ := kalman_exact ext hext noise hn Pk hxr n m r1 r2 h3 h4 r3
    obtain ⟨q', hq', d1, d2, -, -, d5, -⟩ := C44_kalman ext hext noise Pk hxr n m r1 r2 h3 h4 r3
    obtain rfl : q = q' := by rw [hq] at hq'; cases hq'; rfl
    refine ⟨q.cov, Z, ?_, d1, d2, d5, by push_cast; exact z1, by push_cast; exact z2, ?_⟩
    · rw [again, e, Res.bind_ok, hq, Res.bind_ok]
    · rw [hcov, hg]
      push_cast
      exact again_step (P.toM n n) (hxr.toM m n) _ _ hR.ne' Y Z X y1 y2 z2 _ hk x1

/-- C125: `k` uses of a measurement have the effect of one use of a measurement whose noise variance is `k` times smaller. -/
theorem C125_as_if_better (ext : Ext ℝ) (hext : GoodExt ext) (noise noise' : ℝ) (k : Nat) (hn : 1 / 10000000000 < noise * noise) (hn' : 1 / 10000000000 < noise' * noise')
    (hkn : k * (noise' * noise') = noise * noise) (P hxr : DMat ℝ) (n m : Nat) (h1 : P.rows = n) (h2 : P.cols = n) (h3 : hxr.rows = m) (h4 : hxr.cols = n + 1) (hP : (P.toM n n).PosSemidef) :
    ∃ Pk q, again ext noise hxr k P = .ok Pk ∧ kalman ext noise' P hxr = .ok q ∧ Pk.toM n n = q.cov.toM n n := by
  obtain ⟨Pk, Y, e, -, -, -, y1, y2, hPk⟩ := C125_repeated ext hext noise hn P hxr n m h1 h2 h3 h4 hP k
  obtain ⟨q, X, hq, -, -, x1, -, hg, hcov, -⟩ := kalman_exact ext hext noise' hn' P hxr n m h1 h2 h3 h4 hP
  refine ⟨Pk, q, e, hq, ?_⟩
  have hX : X = (k : ℝ) • Y := by
    have h5 : (hxr.toM m n * (P.toM n n * (hxr.toM m n)ᵀ) + (noise' * noise') • (1 : Matrix (Fin m) (Fin m) ℝ)) * ((k : ℝ) • Y) = 1 := by
      rw [Matrix.mul_smul, ← Matrix.smul_mul, smul_add, smul_smul, hkn]
      exact y2
    calc X = X * ((hxr.toM m n * (P.toM n n * (hxr.toM m n)ᵀ) + (noise' * noise') • (1 : Matrix (Fin m) (Fin m) ℝ)) * ((k : ℝ) • Y)) := by rw [h5, Matrix.mul_one]
      _ = _ := by rw [← Matrix.mul_assoc, x1, Matrix.one_mul]
  rw [hPk, hcov, hg, hX, Matrix.sub_mul, Matrix.one_mul]
  simp only [Matrix.mul_assoc, Matrix.mul_smul, Matrix.smul_mul]

/-- C125: with one measured row of prior variance `p`, the variance after `k` uses is `p R / (R + k p)`; it falls below any bound although only one observation was made. -/
theorem C125_overconfident (ext : Ext ℝ) (hext : GoodExt ext) (noise : ℝ) (hn : 1 / 10000000000 < noise * noise) (P hxr : DMat ℝ) (n : Nat) (h1 : P.rows = n) (h2 : P.cols = n)
    (h3 : hxr.rows = 1) (h4 : hxr.cols = n + 1) (hP : (P.toM n n).PosSemidef) (p : ℝ) (hp : p = (hxr.toM 1 n * P.toM n n * (hxr.toM 1 n)ᵀ) 0 0) :
    (∀ k, ∃ Pk, again ext noise hxr k P = .ok Pk ∧ (hxr.toM 1 n * Pk.toM n n * (hxr.toM 1 n)ᵀ) 0 0 = p * (noise * noise) / (noise * noise + k * p)) ∧
    ∀ ε, 0 < ε → ∃ N : Nat, ∀ k, N ≤ k → ∃ Pk, again ext noise hxr k P = .ok Pk ∧ (hxr.toM 1 n * Pk.toM n n * (hxr.toM 1 n)ᵀ) 0 0 < ε := by
  have hR : 0 < noise * noise := lt_trans (by norm_num) hn
  have hp0 : 0 ≤ p := by
    have q := hP.mul_mul_conjTranspose_same (hxr.toM 1 n)
    rw [Matrix.conjTranspose_eq_transpose_of_trivial] at q
    rw [hp]
    exact q.diag_nonneg
  have key : ∀ k : Nat, ∃ Pk, again ext noise hxr k P = .ok Pk ∧ (hxr.toM 1 n * Pk.toM n n * (hxr.toM 1 n)ᵀ) 0 0 = p * (noise * noise) / (noise * noise + k * p) := by
    intro k
    obtain ⟨Pk, Y, e, -, -, -, y1, -, hPk⟩ := C125_repeated ext hext noise hn P hxr n 1 h1 h2 h3 h4 hP k
    refine ⟨Pk, e, ?_⟩
    rw [← Matrix.mul_assoc] at y1
    have e1 : hxr.toM 1 n * Pk.toM n n * (hxr.toM 1 n)ᵀ = hxr.toM 1 n * P.toM n n * (hxr.toM 1 n)ᵀ -
        (k : ℝ) • ((hxr.toM 1 n * P.toM n n * (hxr.toM 1 n)ᵀ) * Y * (hxr.toM 1 n * P.toM n n * (hxr.toM 1 n)ᵀ)) := by
      rw [hPk, Matrix.mul_sub, Matrix.sub_mul, Matrix.mul_smul, Matrix.smul_mul]
      simp only [Matrix.mul_assoc]
    rw [e1]
    have y3 := congrFun (congrFun y1 0) 0
    generalize hxr.toM 1 n * P.toM n n * (hxr.toM 1 n)ᵀ = M at hp y3 ⊢
    simp only [Matrix.sub_apply, Matrix.smul_apply, Matrix.mul_apply, Matrix.add_apply, Finset.univ_unique, Finset.sum_singleton, Fin.default_eq_zero, Matrix.one_apply_eq,
      smul_eq_mul, mul_one] at y3 ⊢
    rw [← hp] at y3 ⊢
    have hd : noise * noise + k * p ≠ 0 := by positivity
    rw [eq_div_iff hd]
    linear_combination (-(k : ℝ) * p * p) * y3
  refine ⟨key, fun ε hε => ?_⟩
  obtain ⟨N, hN⟩ := exists_nat_gt (noise * noise / ε)
  refine ⟨N, fun k hk => ?_⟩
  obtain ⟨Pk, e, hv⟩ := key k
  refine ⟨Pk, e, ?_⟩
  have hd : 0 < noise * noise + k * p := by positivity
  rw [hv, div_lt_iff₀ hd]
  have h5 : noise * noise < N * ε := (div_lt_iff₀ hε).1 hN
  have h6 : (N : ℝ) ≤ k := Nat.cast_le.2 hk
  rcases hp0.lt_or_eq with h | h
  · have : noise * noise < k * ε := lt_of_lt_of_le h5 (mul_le_mul_of_nonneg_right h6 hε.le)
    nlinarith [mul_pos hε hR, mul_lt_mul_of_pos_left this h]
  · rw [← h]; simp; positivity

/-! ### Which observations enter an update -/

section
variable {K T : Type} [Add K] [Sub K] [Mul K] [Neg K] [Div K] [Zero K] [One K] [ScalarFn K] [TimeOps T] [TimeCast T K]

open WinSpec

theorem totalObs_take_lt (os : List (Obs K)) (j k : Nat) (o : Obs K) (ho : os[j]? = some o) (hk : k < o.norms.length) : totalObs (os.take j) + k < totalObs os := by
  induction os generalizing j with
  | nil => simp at ho
  | cons x os ih =>
    cases j with
    | zero =>
      simp only [List.getElem?_cons_zero, Option.some.injEq] at ho
      subst ho
      simp only [totalObs, List.take_zero, List.map_nil, List.sum_nil, List.map_cons, List.sum_cons]
      omega
    | succ j =>
      have := ih j (by simpa using ho)
      simp only [totalObs, List.take_succ_cons, List.map_cons, List.sum_cons] at this ⊢
      omega

/-- In the update that measures window `w`, the observation `n` by camera `c` of frame number `i`, taken at `ts`, gives two rows of the matrix of feature `r`, which is projected and stacked
(multi_view_vision_update.cpp:187-294). -/
def Uses (env : Env K) (w : Win K T) (r i : Nat) (ts : T) (c : Nat) (n : Vec2 K) : Prop :=
  ∃ a p f g b row, measFeature env.ext w.frm (w.feat.heap r) = .ok (some p) ∧ project env.ext a = .ok p ∧ w.frm.frames[i]? = some f ∧ f.ts = ts ∧
    row + 2 ≤ a.rows ∧ ObsRows w.frm f g b (w.feat.heap r).pw c n a row

/-- C125: every observation of a selected feature by any image that is still in the window, however old, gives two rows of the measurement matrix of this update. -/
theorem C125_all_rows (env : Env K) (maxUsed : Nat) (l : Log K T) (w w' : Win K T) (pos pos' : Nat) (sel : List Nat) (hr : Rel l w)
    (hg : ∀ m ∈ l.msgs, GoodObs w.frm.extrinsics.length m) (hfit : 2 * (l.msgs.length * w.frm.extrinsics.length) < two32)
    (hs : selectGood env maxUsed w pos = .ok (w', sel, pos')) (id r : Nat) (hid : w.feat.map.lookup id = some r) (hsel : r ∈ sel)
    (i : Nat) (m : FeatMsg K T) (hm : l.msgs[i]? = some m) (o : Obs K) (ho : report m id = some o) (k c : Nat) (n : Vec2 K) (hn : o.norms[k]? = some (c, n)) :
    Uses env w' r i m.ts c n := by
  have hne : l.msgs ≠ [] := by rintro h; rw [h] at hm; simp at hm
  have hi : i < l.msgs.length := by
    by_contra hc
    rw [List.getElem?_eq_none (by omega)] at hm
    cases hm
  have hwne := (rel_winOk hr hne).ne
  have hb : w.frm.frames.getLast? = some (w.frm.frames.getLast hwne) := List.getLast?_eq_some_getLast hwne
  have hmem := List.getLast_mem hwne
  have hnd := rel_refsNodup hr _ hmem
  have hsame := (C50_selection env maxUsed w w' pos pos' sel _ hb hnd hs).2.2.2.2
  have hok := C51_selected env maxUsed w w' pos pos' sel _ hb hnd hs (fun e he => rel_num hr (rel_frameFeature hr _ hmem e he).1 _ hg hfit) r hsel
  have hr' := rel_keep hr (SameBut.keep hsame)
  have hw' := rel_winOk hr' hne
  have hid' : w'.feat.map.lookup id = some r := by rw [hsame.map]; exact hid
  have ht := hr'.tracks id r hid'
  have hrep := ht.rep i m hm
  rw [ho] at hrep
  split at hrep
  case isFalse => cases hrep
  rename_i hle
  obtain ⟨-, -, a, p, g, b, h1, h2, -, -, h5, -, -, -, h9⟩ := C51_feature env.ext w'.frm (w'.feat.heap r) l.base hw' hok
  obtain ⟨f, hf, h10⟩ := h9 _ o hrep.symm
  have hlt := hr'.lt
  have hfi : i < w'.frm.frames.length := by rw [hr'.len]; exact hi
  have e1 : add32 (l.base + i - (w'.feat.heap r).first) (w'.feat.heap r).first = l.base + i := by
    unfold add32
    rw [Nat.mod_eq_of_lt (by omega)]; omega
  rw [e1] at hf
  have hfi' : w'.frm.frames[i]? = some (w'.frm.frames[i]) := List.getElem?_eq_getElem _
  have hfo := hr'.frames i _ m hfi' hm
  have hf2 := ((C13_getFrame w'.frm l.base (rel_ids hr') (l.base + i)).1 (w'.frm.frames[i])).2 ⟨List.getElem_mem _, hfo.id_eq⟩
  rw [hf2] at hf
  have hff := Option.some.inj hf
  have hk : k < o.norms.length := by
    by_contra hc
    rw [List.getElem?_eq_none (by omega)] at hn
    cases hn
  have hrow := totalObs_take_lt _ _ k o hrep.symm hk
  refine ⟨a, p, _, _, _, _, h1, h2, hfi', hfo.ts_eq, ?_, hff ▸ h10 k c n hn⟩
  rw [h5, hok.num]
  omega

/-- C125: an image stays in the window, with all its reports, until the oldest image is taken away or it is the newest or second newest one and is taken away itself: the policies
in between keep it. -/
theorem C125_oldest_stays (l : Log K T) (w : Win K T) (hr : Rel l w) (ops : List (WOp K T)) (ha : AllowedRun l ops) (hops : ∀ op ∈ ops, op ≠ .marg .margOldest) (m : FeatMsg K T)
    (hm : l.msgs[0]? = some m) : ∃ w', w.run ops = .ok w' ∧ Rel (l.run ops) w' ∧ (l.run ops).base = l.base ∧ (l.run ops).msgs[0]? = some m := by
  obtain ⟨w', h1, h2⟩ := rel_run l w hr ops ha
  refine ⟨w', h1, h2, ?_⟩
  clear h1 h2 w' hr
  induction ops generalizing l with
  | nil => exact ⟨rfl, hm⟩
  | cons op ops ih =>
    have hl : l.msgs ≠ [] := by rintro h; rw [h] at hm; simp at hm
    have key : (l.step op).base = l.base ∧ (l.step op).msgs[0]? = some m := by
      have hal := ha.1
      cases op with
      | insert x =>
        simp only [Log.step, if_neg hl]
        exact ⟨trivial, by rw [List.getElem?_append_left (List.length_pos_iff.2 hl)]; exact hm⟩
      | marg p =>
        cases p with
        | margOldest => exact absurd rfl (hops _ List.mem_cons_self)
        | margSubnew =>
          have : 3 ≤ l.msgs.length := hal
          refine ⟨rfl, ?_⟩
          simp only [Log.step]
          rw [List.getElem?_eraseIdx_of_lt (by omega)]; exact hm
        | margNewest =>
          have : 2 ≤ l.msgs.length := hal
          refine ⟨rfl, ?_⟩
          simp only [Log.step]
          rw [List.getElem?_dropLast, if_pos (by omega)]; exact hm
        | noMarg => exact ⟨rfl, hm⟩
    obtain ⟨h1, h2⟩ := ih (l.step op) ha.2 (fun o ho => hops o (List.mem_cons_of_mem _ ho)) key.2
    exact ⟨h1.trans key.1, h2⟩

/-- C125, the part that holds: within one update a feature is selected at most once and its matrix has exactly two rows for each camera observation, so no observation is used twice in
the same update.  Missing: across updates, which `C125_reused` refutes. -/
theorem C125_once_per_update_partial (env : Env K) (maxUsed : Nat) (l : Log K T) (w w' : Win K T) (pos pos' : Nat) (sel : List Nat) (hr : Rel l w) (hne : l.msgs ≠ [])
    (hg : ∀ m ∈ l.msgs, GoodObs w.frm.extrinsics.length m) (hfit : 2 * (l.msgs.length * w.frm.extrinsics.length) < two32)
    (hs : selectGood env maxUsed w pos = .ok (w', sel, pos')) :
    sel.Nodup ∧ ∀ r ∈ sel, ∃ a p, measFeature env.ext w'.frm (w'.feat.heap r) = .ok (some p) ∧ project env.ext a = .ok p ∧ a.rows = 2 * totalObs (w'.feat.heap r).observes := by
  have hwne := (rel_winOk hr hne).ne
  have hb : w.frm.frames.getLast? = some (w.frm.frames.getLast hwne) := List.getLast?_eq_some_getLast hwne
  have hmem := List.getLast_mem hwne
  have hnd := rel_refsNodup hr _ hmem
  obtain ⟨-, h2, -, -, hsame⟩ := C50_selection env maxUsed w w' pos pos' sel _ hb hnd hs
  refine ⟨h2, fun r hsel => ?_⟩
  have hok := C51_selected env maxUsed w w' pos pos' sel _ hb hnd hs (fun e he => rel_num hr (rel_frameFeature hr _ hmem e he).1 _ hg hfit) r hsel
  obtain ⟨-, -, a, p, g, b, e1, e2, -, -, e5, -⟩ := C51_feature env.ext w'.frm (w'.feat.heap r) l.base (rel_winOk (rel_keep hr (SameBut.keep hsame)) hne) hok
  exact ⟨a, p, e1, e2, by rw [e5, hok.num]⟩

end

/-! ### A history that uses an observation twice -/

open WinSpec

/-- An empty window of two cameras. -/
def reWin : Win ℚ ℚ := Backend.exBackend.u.w

/-- C125 is false: there is a history in which the same observation of the oldest image is used by one update and, after one more image, by the next update again. -/
theorem C125_reused : ∃ (env : Env ℚ) (l : Log ℚ ℚ) (w1 w2 v1 v2 : Win ℚ ℚ) (x m : FeatMsg ℚ ℚ) (o : Obs ℚ) (n : Vec2 ℚ) (id r p1 p2 : Nat) (s1 s2 : List Nat),
    Rel l w1 ∧ w1.run [.insert x] = .ok w2 ∧ Rel (l.step (.insert x)) w2 ∧ l.msgs[0]? = some m ∧ report m id = some o ∧ o.norms[0]? = some (0, n) ∧
    selectGood env 40 w1 0 = .ok (v1, s1, p1) ∧ r ∈ s1 ∧ Uses env v1 r 0 m.ts 0 n ∧
    selectGood env 40 w2 p1 = .ok (v2, s2, p2) ∧ r ∈ s2 ∧ Uses env v2 r 0 m.ts 0 n := by
  have h0 : Rel (Log.empty : Log ℚ ℚ) reWin := rel_empty _ rfl rfl
  have a1 : AllowedRun (Log.empty : Log ℚ ℚ) [.insert (Backend.exMsg 1 0), .insert (Backend.exMsg 1 1)] := by
    simp [AllowedRun, Allowed, GoodMsg, Log.empty, Log.step, Backend.exMsg, two32]
  obtain ⟨w1, e1, r1⟩ := rel_run _ _ h0 _ a1
  have hl : (Log.empty : Log ℚ ℚ).run [.insert (Backend.exMsg 1 0), .insert (Backend.exMsg 1 1)] = ⟨1, [Backend.exMsg 1 0, Backend.exMsg 1 1]⟩ := rfl
  rw [hl] at r1
  have a2 : AllowedRun (⟨1, [Backend.exMsg 1 0, Backend.exMsg 1 1]⟩ : Log ℚ ℚ) [.insert (Backend.exMsg 1 2)] := by
    simp [AllowedRun, Allowed, GoodMsg, Backend.exMsg, two32]
  obtain ⟨w2, e2, r2⟩ := rel_run _ _ r1 _ a2
  have c1 : (reWin.run [.insert (Backend.exMsg 1 0), .insert (Backend.exMsg 1 1)]).check (fun w => (selectGood Backend.exEnv 40 w 0).check (fun y => decide (y.2 = ([0], 1)) &&
      decide (w.feat.map = [(0, 0)]) && decide (w.frm.extrinsics.length = 2))) = true := by decide +kernel
  have c2 : (reWin.run [.insert (Backend.exMsg 1 0), .insert (Backend.exMsg 1 1)]).check (fun w => (w.run [.insert (Backend.exMsg 1 2)]).check (fun w =>
      (selectGood Backend.exEnv 40 w 1).check (fun y => decide (y.2 = ([0], 2)) && decide (w.feat.map = [(0, 0)]) && decide (w.frm.extrinsics.length = 2)))) = true := by decide +kernel
  rw [e1] at c1 c2
  simp only [Res.check] at c1 c2
  rw [e2] at c2
  dsimp only at c2
  have hg : ∀ t : ℚ, GoodObs 2 (Backend.exMsg 1 t) := by
    intro t o ho
    simp [Backend.exMsg] at ho
    subst ho
    simp
  cases hs1 : selectGood Backend.exEnv 40 w1 0 with
  | ub t => rw [hs1] at c1; cases c1
  | ok y1 =>
    cases hs2 : selectGood Backend.exEnv 40 w2 1 with
    | ub t => rw [hs2] at c2; cases c2
    | ok y2 =>
      rw [hs1] at c1
      rw [hs2] at c2
      obtain ⟨v1, s1, p1⟩ := y1
      obtain ⟨v2, s2, p2⟩ := y2
      simp only [Bool.and_eq_true, decide_eq_true_eq, Prod.mk.injEq] at c1 c2
      obtain ⟨⟨⟨rfl, rfl⟩, k1⟩, k2⟩ := c1
      obtain ⟨⟨⟨rfl, rfl⟩, k3⟩, k4⟩ := c2
      refine ⟨Backend.exEnv, ⟨1, [Backend.exMsg 1 0, Backend.exMsg 1 1]⟩, w1, w2, v1, v2, Backend.exMsg 1 2, Backend.exMsg 1 0, ⟨[(0, ⟨0, 0⟩), (1, ⟨1, 0⟩)]⟩, ⟨0, 0⟩, 0, 0, 1, 2, [0], [0],
        r1, e2, r2, rfl, rfl, rfl, hs1, by simp, ?_, hs2, by simp, ?_⟩
      · refine C125_all_rows Backend.exEnv 40 _ w1 v1 0 1 [0] r1 ?_ ?_ hs1 0 0 (by rw [k1]; rfl) (by simp) 0 (Backend.exMsg 1 0) rfl ⟨[(0, ⟨0, 0⟩), (1, ⟨1, 0⟩)]⟩ rfl 0 0 ⟨0, 0⟩ rfl
        · rw [k2]; intro m hm; simp only [List.mem_cons, List.not_mem_nil, or_false] at hm
          rcases hm with rfl | rfl <;> exact hg _
        · rw [k2]; decide
      · refine C125_all_rows Backend.exEnv 40 _ w2 v2 1 2 [0] r2 ?_ ?_ hs2 0 0 (by rw [k3]; rfl) (by simp) 0 (Backend.exMsg 1 0) rfl ⟨[(0, ⟨0, 0⟩), (1, ⟨1, 0⟩)]⟩ rfl 0 0 ⟨0, 0⟩ rfl
        · rw [k4]; intro m hm
          have : m = Backend.exMsg 1 0 ∨ m = Backend.exMsg 1 1 ∨ m = Backend.exMsg 1 2 := by simpa [Log.run, Log.step] using hm
          rcases this with rfl | rfl | rfl <;> exact hg _
        · rw [k4]; decide

/-- C125: one measured component of variance 1 with noise 1; the conditions of `C125_overconfident` are met. -/
example : ∃ ext : Ext ℝ, GoodExt ext ∧ ∀ k, ∃ Pk, again ext 1 ⟨1, 2, fun _ _ => 1⟩ k ⟨1, 1, fun _ _ => 1⟩ = .ok Pk ∧
    ((⟨1, 2, fun _ _ => 1⟩ : DMat ℝ).toM 1 1 * Pk.toM 1 1 * ((⟨1, 2, fun _ _ => 1⟩ : DMat ℝ).toM 1 1)ᵀ) 0 0 = 1 / (1 + k) := by
  obtain ⟨ext, hext, -⟩ := exists_goodExt ⟨fun _ _ => 0, fun _ v => v, fun _ _ => ⟨0, 0⟩, fun _ _ _ => 0, fun _ _ => 0, fun _ _ _ => 0⟩
  have e1 : (⟨1, 1, fun _ _ => 1⟩ : DMat ℝ).toM 1 1 = 1 := by
    ext i j; fin_cases i; fin_cases j; simp [DMat.toM]
  have e2 : (⟨1, 2, fun _ _ => 1⟩ : DMat ℝ).toM 1 1 = 1 := by
    ext i j; fin_cases i; fin_cases j; simp [DMat.toM]
  refine ⟨ext, hext, fun k => ?_⟩
  obtain ⟨Pk, h1, h2⟩ := (C125_overconfident ext hext 1 (by norm_num) ⟨1, 1, fun _ _ => 1⟩ ⟨1, 2, fun _ _ => 1⟩ 1 rfl rfl rfl rfl (by rw [e1]; exact Matrix.PosSemidef.one) 1
    (by rw [e1, e2]; simp)).1 k
  exact ⟨Pk, h1, by rw [h2]; norm_num⟩

end Update
end Vio
