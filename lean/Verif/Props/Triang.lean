/-
Triangulation: C53-C56.
-/
import Verif.Model.Triang
import Verif.Spec.Geometry
import Verif.Lemmas.Deriv
import Verif.Lemmas.Matrix
import Verif.PReal
import Mathlib.Tactic.NormNum

set_option linter.unusedSectionVars false

namespace Vio.Triang
open Vio.Spec

section generic
variable {K : Type} [Add K] [Sub K] [Mul K] [Neg K] [Div K] [Zero K] [One K] [ScalarFn K]

/-! ### C53 -/

theorem systemRows_ok (qs : List (Quat K)) (ps : List (Vec3 K)) (ns : List (Vec2 K)) (h1 : qs.length ≤ ps.length) (h2 : qs.length ≤ ns.length) :
    ∃ rows, systemRows qs ps ns = .ok rows ∧ rows.length = qs.length ∧
      ∀ i (hi : i < qs.length), rows[i]? = some (viewRow qs[i] (ps[i]'(hi.trans_le h1)) (ns[i]'(hi.trans_le h2))) := by
  induction qs generalizing ps ns with
  | nil => exact ⟨[], rfl, rfl, fun i hi => absurd hi (Nat.not_lt_zero _)⟩
  | cons q qs ih =>
    cases ps with
    | nil => simp at h1
    | cons p ps =>
      cases ns with
      | nil => simp at h2
      | cons n ns =>
        obtain ⟨rows, e, hl, hr⟩ := ih ps ns (by simpa using h1) (by simpa using h2)
        refine ⟨viewRow q p n :: rows, by simp [systemRows, e], by simp [hl], ?_⟩
        intro i hi
        cases i with
        | zero => rfl
        | succ i => simpa using hr i (by simpa using hi)

theorem inFront_ok (pw : Vec3 K) (qs : List (Quat K)) (ps : List (Vec3 K)) (h1 : qs.length ≤ ps.length) :
    inFront pw qs ps = .ok ((qs.zip ps).all fun x => !ScalarFn.lt (x.1.inverse.rotate (pw - x.2)).z 0) := by
  induction qs generalizing ps with
  | nil => rfl
  | cons q qs ih =>
    cases ps with
    | nil => simp at h1
    | cons p ps =>
      have := ih ps (by simpa using h1)
      simp only [inFront, this, List.zip_cons_cons, List.all_cons]
      cases ScalarFn.lt (q.inverse.rotate (pw - p)).z 0 <;> simp

/-- C53: fewer than two views fail and leave the point alone, whatever the lists. -/
theorem C53_few_views (ext : Ext K) (qs : List (Quat K)) (ps : List (Vec3 K)) (ns : List (Vec2 K)) (pw : Vec3 K) (h : qs.length < 2) :
    analytic ext qs ps ns pw = .ok (false, pw) := by
  simp [analytic, h]

/-- C53: with a pose and an observation for every view the function is free of undefined behaviour. -/
theorem C53_defined (ext : Ext K) (qs : List (Quat K)) (ps : List (Vec3 K)) (ns : List (Vec2 K)) (pw : Vec3 K)
    (h1 : qs.length ≤ ps.length) (h2 : qs.length ≤ ns.length) : ∃ r, analytic ext qs ps ns pw = .ok r := by
  obtain ⟨rows, e, -, -⟩ := systemRows_ok qs ps ns h1 h2
  unfold analytic
  split
  · exact ⟨_, rfl⟩
  · simp only [e, Res.bind_ok]
    split
    · exact ⟨_, rfl⟩
    · rw [inFront_ok _ _ _ h1]
      exact ⟨_, rfl⟩

/-- Success means that no depth compares below zero, for every scalar type and every SVD result. -/
theorem C53_not_behind (ext : Ext K) (qs : List (Quat K)) (ps : List (Vec3 K)) (ns : List (Vec2 K)) (pw p : Vec3 K)
    (h : analytic ext qs ps ns pw = .ok (true, p)) :
    2 ≤ qs.length ∧ qs.length ≤ ps.length ∧ ∀ x ∈ qs.zip ps, ScalarFn.lt (x.1.inverse.rotate (p - x.2)).z 0 = false := by
  unfold analytic at h
  split at h
  · simp at h
  · rename_i hn
    obtain ⟨rows, hr, h⟩ := Res.bind_eq_ok.1 h
    dsimp only at h
    split at h
    · simp at h
    · obtain ⟨good, hg, h⟩ := Res.bind_eq_ok.1 h
      simp only [Res.ok.injEq, Prod.mk.injEq] at h
      obtain ⟨rfl, rfl⟩ := h
      have key : ∀ (qs : List (Quat K)) (ps : List (Vec3 K)) (pw : Vec3 K), inFront pw qs ps = .ok true →
          qs.length ≤ ps.length ∧ ∀ x ∈ qs.zip ps, ScalarFn.lt (x.1.inverse.rotate (pw - x.2)).z 0 = false := by
        intro qs
        induction qs with
        | nil => intro ps pw _; simp
        | cons q qs ih =>
          intro ps pw h
          cases ps with
          | nil => simp [inFront] at h
          | cons p ps =>
            simp only [inFront] at h
            split at h
            · simp at h
            · rename_i hq
              obtain ⟨a, b⟩ := ih ps pw h
              refine ⟨by simpa using a, ?_⟩
              intro x hx
              simp only [List.zip_cons_cons, List.mem_cons] at hx
              rcases hx with rfl | hx
              · simpa using hq
              · exact b x hx
      exact ⟨by omega, key qs ps _ hg⟩

end generic

/-- C53 (in exact arithmetic without NaN): whenever the function succeeds the point has non-negative depth in every view.  Missing: NaN, see `C53_nan_accepted`. -/
theorem C53_depth_partial (ext : Ext ℝ) (qs : List (Quat ℝ)) (ps : List (Vec3 ℝ)) (ns : List (Vec2 ℝ)) (pw p : Vec3 ℝ)
    (h : analytic ext qs ps ns pw = .ok (true, p)) : ∀ x ∈ qs.zip ps, 0 ≤ depth x.1 x.2 p := by
  intro x hx
  have := (C53_not_behind ext qs ps ns pw p h).2.2 x hx
  simpa [depth] using this

/-- C53: in exact arithmetic success is exactly: two views, last component not tiny, no negative depth. -/
theorem C53_success_iff (ext : Ext ℝ) (qs : List (Quat ℝ)) (ps : List (Vec3 ℝ)) (ns : List (Vec2 ℝ)) (pw : Vec3 ℝ)
    (h1 : qs.length ≤ ps.length) (h2 : qs.length ≤ ns.length) : ∃ rows, systemRows qs ps ns = .ok rows ∧
      let x := ext.svdLast (stack2 rows)
      let r : Vec3 ℝ := ⟨x 0 / x 3, x 1 / x 3, x 2 / x 3⟩
      ((∃ p, analytic ext qs ps ns pw = .ok (true, p)) ↔ 2 ≤ qs.length ∧ 1 / 1000000 ≤ |x 3| ∧ ∀ y ∈ qs.zip ps, 0 ≤ depth y.1 y.2 r) := by
  obtain ⟨rows, e, -, -⟩ := systemRows_ok qs ps ns h1 h2
  refine ⟨rows, e, ?_⟩
  simp only [analytic, e, Res.bind_ok, inFront_ok _ _ _ h1]
  by_cases hn : qs.length < 2
  · simp [hn]
  · have hn' : 2 ≤ qs.length := by omega
    simp only [hn, ↓reduceIte, hn', true_and]
    by_cases hx : |ext.svdLast (stack2 rows) 3| < 1 / 1000000
    · simp only [ScalarFn.fabs_real, ScalarFn.lit_real, ScalarFn.lt_real]
      push_cast
      simp only [hx, decide_true, ↓reduceIte, not_le.2 hx, false_and, iff_false]
      simp
    · simp only [ScalarFn.fabs_real, ScalarFn.lit_real, ScalarFn.lt_real]
      push_cast
      simp only [hx, decide_false, Bool.false_eq_true, ↓reduceIte, not_lt.1 hx, true_and]
      simp only [Res.ok.injEq, Prod.mk.injEq, exists_eq_right', List.all_eq_true, Bool.not_eq_true', decide_eq_false_iff_not, not_lt, depth]

/-- C53 is false with NaN: an all-NaN decomposition (for instance from NaN observations) is accepted. -/
theorem C53_nan_accepted : ∃ (ext : Ext PReal) (qs : List (Quat PReal)) (ps : List (Vec3 PReal)) (ns : List (Vec2 PReal)) (pw p : Vec3 PReal),
    analytic ext qs ps ns pw = .ok (true, p) ∧ ∃ x ∈ qs.zip ps, ScalarFn.le 0 (x.1.inverse.rotate (p - x.2)).z = false := by
  refine ⟨⟨fun _ _ => .nan, fun _ b => b, fun _ b => b, fun _ _ _ => 0, fun _ _ => 0, fun _ _ _ => 0⟩, [.one, .one], [0, 0], [⟨.nan, .nan⟩, ⟨.nan, .nan⟩], 0,
    ⟨.nan, .nan, .nan⟩, ?_, (.one, 0), by simp, ?_⟩
  · have hlt : ∀ a, ScalarFn.lt PReal.nan a = false := fun a => rfl
    have hf : ScalarFn.fabs PReal.nan = PReal.nan := rfl
    have hz : ∀ (q : Quat PReal) (v : Vec3 PReal), v.z = .nan → (q.rotate v).z = .nan := by
      intro q v h
      simp [Quat.rotate, h, PReal.nan_add]
    have hr : ∀ q : Quat PReal, ScalarFn.lt (q.rotate ((⟨.nan, .nan, .nan⟩ : Vec3 PReal) - 0)).z 0 = false := by
      intro q
      rw [hz]
      · rfl
      · rfl
    simp only [analytic, List.length_cons, List.length_nil, systemRows, Res.bind_ok, hf, hlt, PReal.nan_div, inFront, hr]
    simp
  · have : (((Quat.one, 0) : Quat PReal × Vec3 PReal).1.inverse.rotate ((⟨.nan, .nan, .nan⟩ : Vec3 PReal) - ((Quat.one, 0) : Quat PReal × Vec3 PReal).2)).z = .nan := by
      simp only [Quat.rotate, Vec3.add_z, Vec3.sub_z, PReal.nan_sub, PReal.nan_add]
    rw [this]
    rfl

/-! ### C54 -/

/-- The homogeneous vector of a point. -/
noncomputable def homog (x : Vec3 ℝ) (k : ℝ) : Nat → ℝ := fun j => if j = 0 then k * x.x else if j = 1 then k * x.y else if j = 2 then k * x.z else k

/-- Product of one view's rows with a homogeneous vector. -/
theorem viewRow_mul (q : Quat ℝ) (p : Vec3 ℝ) (n : Vec2 ℝ) (x : Vec3 ℝ) (k : ℝ) :
    (∑ j ∈ Finset.range 4, viewRow q p n 0 j * homog x k j) = k * (n.x * (q.inverse.rotate (x - p)).z - (q.inverse.rotate (x - p)).x) ∧
    (∑ j ∈ Finset.range 4, viewRow q p n 1 j * homog x k j) = k * (n.y * (q.inverse.rotate (x - p)).z - (q.inverse.rotate (x - p)).y) := by
  rw [Quat.rotate_sub, ← Quat.toMat_mulVec _ x]
  constructor
  · simp [Finset.sum_range_succ, viewRow, Mat3.mulVec, Vec3.dot, Mat3.get, Mat3.row, Vec3.get, homog]
    ring
  · simp [Finset.sum_range_succ, viewRow, Mat3.mulVec, Vec3.dot, Mat3.get, Mat3.row, Vec3.get, homog]
    ring

/-- Exact observations put the homogeneous point into the kernel. -/
theorem system_kernel (qs : List (Quat ℝ)) (ps : List (Vec3 ℝ)) (ns : List (Vec2 ℝ)) (x : Vec3 ℝ) (k : ℝ)
    (h1 : qs.length = ps.length) (h2 : qs.length = ns.length)
    (hobs : ∀ i (hi : i < qs.length), ExactObs qs[i] (ps[i]'(h1 ▸ hi)) x (ns[i]'(h2 ▸ hi))) (rows) (e : systemRows qs ps ns = .ok rows) :
    ∀ i < (stack2 rows).rows, ∑ j ∈ Finset.range 4, (stack2 rows).e i j * homog x k j = 0 := by
  obtain ⟨rows', e', hl, hr⟩ := systemRows_ok qs ps ns h1.le h2.le
  rw [e] at e'
  cases e'
  intro i hi
  have hi2 : i / 2 < qs.length := by
    simp only [stack2, hl] at hi
    omega
  have hrow := hr (i / 2) hi2
  obtain ⟨hz, hx, hy⟩ := hobs (i / 2) hi2
  have hm := viewRow_mul qs[i/2] (ps[i/2]'(h1 ▸ hi2)) (ns[i/2]'(h2 ▸ hi2)) x k
  have e4 : ∀ j, (stack2 rows).e i j = viewRow qs[i/2] (ps[i/2]'(h1 ▸ hi2)) (ns[i/2]'(h2 ▸ hi2)) (i % 2) j := by
    intro j
    simp [stack2, hrow]
  simp only [e4]
  rcases Nat.mod_two_eq_zero_or_one i with h | h
  · rw [h, hm.1, hx, div_mul_cancel₀ _ hz, sub_self, mul_zero]
  · rw [h, hm.2, hy, div_mul_cancel₀ _ hz, sub_self, mul_zero]

/-- A last singular vector of a matrix with a homogeneous point in its kernel is in the kernel. -/
theorem svd_in_kernel (a : DMat ℝ) (p : Vec3 ℝ) (v : Nat → ℝ) (hv : IsLastSingular a v)
    (hp : ∀ k, ∀ i < a.rows, ∑ j ∈ Finset.range 4, a.e i j * homog p k j = 0) : ∀ i < a.rows, ∑ j ∈ Finset.range 4, a.e i j * v j = 0 := by
  have hpos : 0 < 1 + p.sqNorm := by have := p.sqNorm_nonneg; linarith
  set k := 1 / √(1 + p.sqNorm) with hkdef
  have hk2 : k ^ 2 * (1 + p.sqNorm) = 1 := by
    rw [hkdef, div_pow, Real.sq_sqrt hpos.le]; field_simp
  have hunit : ∑ j ∈ Finset.range 4, homog p k j ^ 2 = 1 := by
    simp only [Finset.sum_range_succ, Finset.sum_range_zero, homog]
    simp only [Vec3.sqNorm] at hk2
    simp
    linarith
  have hle := hv.least _ hunit
  have hzero : imageSq a (homog p k) = 0 := by
    unfold imageSq
    apply Finset.sum_eq_zero
    intro i hi
    rw [hp k i (Finset.mem_range.1 hi)]
    norm_num
  rw [hzero] at hle
  intro i hi
  have h0 : imageSq a v = 0 := le_antisymm hle (Finset.sum_nonneg fun i _ => sq_nonneg _)
  have := (Finset.sum_eq_zero_iff_of_nonneg (fun i _ => sq_nonneg _)).1 h0 i (Finset.mem_range.2 hi)
  exact pow_eq_zero_iff (two_ne_zero) |>.1 this

/-- The decomposition yields a multiple of the homogeneous point. -/
theorem svd_is_point (a : DMat ℝ) (p : Vec3 ℝ) (v : Nat → ℝ) (hv : IsLastSingular a v) (hk : KernelIsPoint a p)
    (hp : ∀ k, ∀ i < a.rows, ∑ j ∈ Finset.range 4, a.e i j * homog p k j = 0) :
    v 0 = v 3 * p.x ∧ v 1 = v 3 * p.y ∧ v 2 = v 3 * p.z ∧ v 3 ^ 2 * (1 + p.sqNorm) = 1 := by
  obtain ⟨a0, a1, a2⟩ := hk v (svd_in_kernel a p v hv hp)
  refine ⟨a0, a1, a2, ?_⟩
  have hu := hv.unit
  simp only [Finset.sum_range_succ, Finset.sum_range_zero, a0, a1, a2] at hu
  simp only [Vec3.sqNorm]
  linarith

/-- C54 (for points with `1 + |p|² ≤ 10¹²`): exact observations in front of all views and a linear system that determines the point give exactly the point, for every decomposition that
meets the specification of the singular value decomposition.  Missing: points further away are rejected, `C54_far_point_rejected`. -/
theorem C54_exact_partial (ext : Ext ℝ) (qs : List (Quat ℝ)) (ps : List (Vec3 ℝ)) (ns : List (Vec2 ℝ)) (pw x : Vec3 ℝ)
    (h1 : qs.length = ps.length) (h2 : qs.length = ns.length) (hn : 2 ≤ qs.length)
    (hobs : ∀ i (hi : i < qs.length), ExactObs qs[i] (ps[i]'(h1 ▸ hi)) x (ns[i]'(h2 ▸ hi)) ∧ 0 < depth qs[i] (ps[i]'(h1 ▸ hi)) x)
    (hsys : ∀ rows, systemRows qs ps ns = .ok rows → KernelIsPoint (stack2 rows) x ∧ IsLastSingular (stack2 rows) (ext.svdLast (stack2 rows)))
    (hnear : 1 + x.sqNorm ≤ 1000000 ^ 2) : analytic ext qs ps ns pw = .ok (true, x) := by
  obtain ⟨rows, e, -, -⟩ := systemRows_ok qs ps ns h1.le h2.le
  obtain ⟨hk, hv⟩ := hsys rows e
  obtain ⟨a0, a1, a2, a3⟩ := svd_is_point _ x _ hv hk (fun k => system_kernel qs ps ns x k h1 h2 (fun i hi => (hobs i hi).1) rows e)
  simp only [analytic, not_lt.2 hn, ↓reduceIte, e, Res.bind_ok, inFront_ok _ _ _ h1.le]
  generalize ext.svdLast (stack2 rows) = v at *
  have hpos : 0 < 1 + x.sqNorm := by have := x.sqNorm_nonneg; linarith
  have h3 : v 3 ≠ 0 := by
    intro h
    rw [h] at a3
    norm_num at a3
  have hbig : ¬ |v 3| < 1 / 1000000 := by
    intro h
    have := sq_lt_sq' (by linarith [abs_nonneg (v 3)]) h
    rw [sq_abs] at this
    have h4 : v 3 ^ 2 * (1 + x.sqNorm) < (1 / 1000000) ^ 2 * (1 + x.sqNorm) := mul_lt_mul_of_pos_right this hpos
    nlinarith
  have ex : (⟨v 0 / v 3, v 1 / v 3, v 2 / v 3⟩ : Vec3 ℝ) = x := by
    apply Vec3.ext <;> simp only [a0, a1, a2] <;> field_simp
  rw [ex]
  simp only [ScalarFn.fabs_real, ScalarFn.lit_real, ScalarFn.lt_real]
  push_cast
  simp only [hbig, decide_false, Bool.false_eq_true, ↓reduceIte, Res.ok.injEq, Prod.mk.injEq, and_true, List.all_eq_true, Bool.not_eq_true',
    decide_eq_false_iff_not, not_lt]
  intro y hy
  obtain ⟨i, hi, rfl⟩ := List.getElem_of_mem hy
  simp only [List.length_zip, lt_min_iff] at hi
  simpa [depth] using (hobs i hi.1).2.le

/-- C54 is false for far points: beyond `1 + |p|² > 10¹²` the function always fails, although observations and decomposition are exact. -/
theorem C54_far_point_rejected (ext : Ext ℝ) (qs : List (Quat ℝ)) (ps : List (Vec3 ℝ)) (ns : List (Vec2 ℝ)) (pw x : Vec3 ℝ)
    (h1 : qs.length = ps.length) (h2 : qs.length = ns.length)
    (hobs : ∀ i (hi : i < qs.length), ExactObs qs[i] (ps[i]'(h1 ▸ hi)) x (ns[i]'(h2 ▸ hi)))
    (hsys : ∀ rows, systemRows qs ps ns = .ok rows → KernelIsPoint (stack2 rows) x ∧ IsLastSingular (stack2 rows) (ext.svdLast (stack2 rows)))
    (hfar : 1000000 ^ 2 < 1 + x.sqNorm) : analytic ext qs ps ns pw = .ok (false, pw) := by
  obtain ⟨rows, e, -, -⟩ := systemRows_ok qs ps ns h1.le h2.le
  obtain ⟨hk, hv⟩ := hsys rows e
  obtain ⟨a0, a1, a2, a3⟩ := svd_is_point _ x _ hv hk (fun k => system_kernel qs ps ns x k h1 h2 hobs rows e)
  simp only [analytic, e, Res.bind_ok]
  generalize ext.svdLast (stack2 rows) = v at *
  have hpos : 0 < 1 + x.sqNorm := by have := x.sqNorm_nonneg; linarith
  have hsmall : |v 3| < 1 / 1000000 := by
    by_contra h
    rw [not_lt] at h
    have := pow_le_pow_left₀ (by norm_num) h 2
    rw [sq_abs] at this
    have h4 : (1 / 1000000) ^ 2 * (1 + x.sqNorm) ≤ v 3 ^ 2 * (1 + x.sqNorm) := mul_le_mul_of_nonneg_right this hpos.le
    nlinarith
  simp only [ScalarFn.fabs_real, ScalarFn.lit_real, ScalarFn.lt_real]
  push_cast
  simp only [hsmall, decide_true, ↓reduceIte, ite_self]

/-- A system matrix of rank three whose kernel contains the homogeneous point determines the point. -/
theorem kernel_of_rank (a : DMat ℝ) (p : Vec3 ℝ) (hr : (a.toM a.rows 4).rank = 3)
    (hp : ∀ i < a.rows, ∑ j ∈ Finset.range 4, a.e i j * homog p 1 j = 0) : KernelIsPoint a p := by
  intro y hy
  have hmul : ∀ z : Nat → ℝ, (∀ i < a.rows, ∑ j ∈ Finset.range 4, a.e i j * z j = 0) →
      (fun j : Fin 4 => z j) ∈ LinearMap.ker (a.toM a.rows 4).mulVecLin := by
    intro z hz
    rw [LinearMap.mem_ker]
    funext i
    have := hz i i.2
    rw [Finset.sum_range] at this
    exact this
  have h1 := LinearMap.finrank_range_add_finrank_ker (a.toM a.rows 4).mulVecLin
  have h2 : Module.finrank ℝ (LinearMap.range (a.toM a.rows 4).mulVecLin) = 3 := hr
  have h3 : Module.finrank ℝ (LinearMap.ker (a.toM a.rows 4).mulVecLin) = 1 := by
    rw [h2, Module.finrank_fin_fun] at h1
    omega
  let v : LinearMap.ker (a.toM a.rows 4).mulVecLin := ⟨_, hmul _ hp⟩
  have hv : v ≠ 0 := by
    intro h
    have := congrFun (congrArg Subtype.val h) 3
    simp [v, homog] at this
  obtain ⟨c, hc⟩ := (finrank_eq_one_iff_of_nonzero' v hv).1 h3 ⟨_, hmul _ hy⟩
  have e : ∀ j : Fin 4, c * homog p 1 j = y j := fun j => congrFun (congrArg Subtype.val hc) j
  have e0 := e 0
  have e1 := e 1
  have e2 := e 2
  have e3 := e 3
  simp [homog] at e0 e1 e2 e3
  rw [← e0, ← e1, ← e2, ← e3]
  exact ⟨rfl, rfl, rfl⟩

/-- C54 with the condition on the system stated as its rank. -/
theorem C54_exact_rank_partial (ext : Ext ℝ) (qs : List (Quat ℝ)) (ps : List (Vec3 ℝ)) (ns : List (Vec2 ℝ)) (pw x : Vec3 ℝ)
    (h1 : qs.length = ps.length) (h2 : qs.length = ns.length) (hn : 2 ≤ qs.length)
    (hobs : ∀ i (hi : i < qs.length), ExactObs qs[i] (ps[i]'(h1 ▸ hi)) x (ns[i]'(h2 ▸ hi)) ∧ 0 < depth qs[i] (ps[i]'(h1 ▸ hi)) x)
    (hsvd : ∀ a, IsLastSingular a (ext.svdLast a))
    (hrank : ∀ rows, systemRows qs ps ns = .ok rows → ((stack2 rows).toM (stack2 rows).rows 4).rank = 3)
    (hnear : 1 + x.sqNorm ≤ 1000000 ^ 2) : analytic ext qs ps ns pw = .ok (true, x) :=
  C54_exact_partial ext qs ps ns pw x h1 h2 hn hobs
    (fun rows e => ⟨kernel_of_rank _ _ (hrank rows e) (system_kernel qs ps ns x 1 h1 h2 (fun i hi => (hobs i hi).1) rows e), hsvd _⟩) hnear

/-! A concrete pair of views of the point `(0, 0, z)`. -/

/-- Observation in the second view. -/
noncomputable def exN (z : ℝ) : Vec2 ℝ := ⟨(-1) / z, 0⟩

theorem ex_rot (v : Vec3 ℝ) : ((Quat.one : Quat ℝ).inverse).rotate v = v := by
  rw [Quat.inverse_of_unit _ (by simp [Quat.one, Quat.sqNorm])]
  apply Vec3.ext <;> simp [Quat.one, Quat.rotate, Quat.vec]

theorem ex_obs (z : ℝ) (hz : 0 < z) : ∀ i (hi : i < [(Quat.one : Quat ℝ), .one].length),
    ExactObs [(Quat.one : Quat ℝ), .one][i] ([(0 : Vec3 ℝ), ⟨1, 0, 0⟩][i]'(by simpa using hi)) ⟨0, 0, z⟩ ([(⟨0, 0⟩ : Vec2 ℝ), exN z][i]'(by simpa using hi)) ∧
    0 < depth [(Quat.one : Quat ℝ), .one][i] ([(0 : Vec3 ℝ), ⟨1, 0, 0⟩][i]'(by simpa using hi)) ⟨0, 0, z⟩ := by
  intro i hi
  have : i = 0 ∨ i = 1 := by simp at hi; omega
  rcases this with rfl | rfl
  · simp [ExactObs, depth, ex_rot, hz.ne', hz]
  · simp [ExactObs, depth, ex_rot, hz.ne', hz, exN]

/-- A decomposition that meets the specification on the example. -/
noncomputable def exExt (z : ℝ) : Ext ℝ :=
  ⟨fun _ => homog ⟨0, 0, z⟩ (1 / √(1 + z * z)), fun _ b => b, fun _ b => b, fun _ _ _ => 0, fun _ _ => 0, fun _ _ _ => 0⟩

theorem ex_sys (z : ℝ) (hz : 0 < z) : ∀ rows, systemRows [(Quat.one : Quat ℝ), .one] [0, ⟨1, 0, 0⟩] [⟨0, 0⟩, exN z] = .ok rows →
    KernelIsPoint (stack2 rows) ⟨0, 0, z⟩ ∧ IsLastSingular (stack2 rows) ((exExt z).svdLast (stack2 rows)) := by
  intro rows e
  have hker := fun k => system_kernel [(Quat.one : Quat ℝ), .one] [0, ⟨1, 0, 0⟩] [⟨0, 0⟩, exN z] ⟨0, 0, z⟩ k rfl rfl (fun i hi => (ex_obs z hz i hi).1) rows e
  refine ⟨?_, ?_, ?_⟩
  · intro y hy
    simp only [systemRows, Res.bind_ok, Res.ok.injEq] at e
    subst e
    have m : (Quat.one : Quat ℝ).inverse.toMat = Mat3.one := by
      rw [Quat.inverse_of_unit _ (by simp [Quat.one, Quat.sqNorm])]
      simp [Quat.one, Quat.toMat, Mat3.one]
    have h0 := hy 0 (by simp [stack2])
    have h1 := hy 1 (by simp [stack2])
    have h2 := hy 2 (by simp [stack2])
    simp [stack2, viewRow, m, ex_rot, Finset.sum_range_succ, Mat3.one, Mat3.get, Mat3.row, Vec3.get, exN] at h0 h1 h2
    refine ⟨by simpa using h0, by simpa using h1, ?_⟩
    rw [h0] at h2
    field_simp at h2
    linarith
  · have : 0 < 1 + z * z := by nlinarith
    simp only [exExt, Finset.sum_range_succ, Finset.sum_range_zero, homog]
    simp
    rw [mul_pow, inv_pow, Real.sq_sqrt this.le]
    field_simp
    ring
  · intro y _
    have : imageSq (stack2 rows) ((exExt z).svdLast (stack2 rows)) = 0 := by
      unfold imageSq
      apply Finset.sum_eq_zero
      intro i hi
      have := hker (1 / √(1 + z * z)) i (Finset.mem_range.1 hi)
      simp only [exExt]
      rw [this]
      norm_num
    rw [this]
    exact Finset.sum_nonneg fun i _ => sq_nonneg _

/-- The hypotheses of `C54_exact_partial` are met by two views of `(0,0,2)`; it also shows acceptance (`C53`). -/
example : analytic (exExt 2) [.one, .one] [0, ⟨1, 0, 0⟩] [⟨0, 0⟩, exN 2] 0 = .ok (true, ⟨0, 0, 2⟩) :=
  C54_exact_partial (exExt 2) _ _ _ 0 ⟨0, 0, 2⟩ rfl rfl (by simp) (ex_obs 2 (by norm_num)) (ex_sys 2 (by norm_num)) (by norm_num [Vec3.sqNorm])

/-- C54 fails for a point two million units away. -/
theorem C54_far_witness : analytic (exExt 2000000) [.one, .one] [0, ⟨1, 0, 0⟩] [⟨0, 0⟩, exN 2000000] 0 = .ok (false, 0) :=
  C54_far_point_rejected (exExt 2000000) _ _ _ 0 ⟨0, 0, 2000000⟩ rfl rfl (fun i hi => (ex_obs _ (by norm_num) i hi).1) (ex_sys _ (by norm_num)) (by norm_num [Vec3.sqNorm])

/-! ### C55 -/

section generic
variable {K : Type} [Add K] [Sub K] [Mul K] [Neg K] [Div K] [Zero K] [One K] [ScalarFn K]

/-- What the iteration keeps: the stored cost is that of the stored solution or no step was accepted yet. -/
structure LMInv (vs : List (View K)) (pw : Vec3 K) (s : LM K) : Prop where
  best : (s.sol = toParam pw ∧ s.cost = cost vs pw) ∨ (s.cost = cost vs (toPoint s.sol) ∧ ScalarFn.lt s.cost (cost vs pw) = true)

theorem innerBody_inv (htr : ∀ a b c : K, ScalarFn.lt a b = true → ScalarFn.lt b c = true → ScalarFn.lt a c = true)
    (ext : Ext K) (vs : List (View K)) (ab) (pw : Vec3 K) (s : LM K) (h : LMInv vs pw s) : LMInv vs pw (innerBody ext vs ab s) := by
  unfold innerBody
  dsimp only
  split
  · rename_i hl
    refine ⟨.inr ⟨rfl, ?_⟩⟩
    rcases h.best with ⟨_, h2⟩ | ⟨_, h2⟩
    · rw [← h2]; exact hl
    · exact htr _ _ _ hl h2
  · exact ⟨h.best⟩

theorem innerLoop_inv (htr : ∀ a b c : K, ScalarFn.lt a b = true → ScalarFn.lt b c = true → ScalarFn.lt a c = true)
    (ext : Ext K) (vs : List (View K)) (ab) (pw : Vec3 K) (n : Nat) (s : LM K) (h : LMInv vs pw s) : LMInv vs pw (innerLoop ext vs ab n s) := by
  induction n generalizing s with
  | zero => exact innerBody_inv htr ext vs ab pw s h
  | succ n ih =>
    simp only [innerLoop]
    split
    · exact innerBody_inv htr ext vs ab pw s h
    · exact ih _ (innerBody_inv htr ext vs ab pw s h)

theorem outerLoop_inv (htr : ∀ a b c : K, ScalarFn.lt a b = true → ScalarFn.lt b c = true → ScalarFn.lt a c = true)
    (ext : Ext K) (vs : List (View K)) (pw : Vec3 K) (n : Nat) (s : LM K) (h : LMInv vs pw s) : LMInv vs pw (outerLoop ext vs n s) := by
  induction n generalizing s with
  | zero => exact innerLoop_inv htr ext vs _ pw _ _ ⟨h.best⟩
  | succ n ih =>
    simp only [outerLoop]
    split
    · exact ih _ (innerLoop_inv htr ext vs _ pw _ _ ⟨h.best⟩)
    · exact innerLoop_inv htr ext vs _ pw _ _ ⟨h.best⟩

theorem innerBody_count (ext : Ext K) (vs : List (View K)) (ab) (s : LM K) :
    (innerBody ext vs ab s).outer = s.outer ∧ (innerBody ext vs ab s).lambdas.length = s.lambdas.length + 1 := by
  unfold innerBody
  dsimp only
  split <;> simp

theorem innerLoop_count (ext : Ext K) (vs : List (View K)) (ab) (n : Nat) (s : LM K) :
    (innerLoop ext vs ab n s).outer = s.outer ∧ (innerLoop ext vs ab n s).lambdas.length ≤ s.lambdas.length + n + 1 := by
  induction n generalizing s with
  | zero => have := innerBody_count ext vs ab s; exact ⟨this.1, this.2.le⟩
  | succ n ih =>
    have h := innerBody_count ext vs ab s
    simp only [innerLoop]
    split
    · exact ⟨h.1, by omega⟩
    · have := ih (innerBody ext vs ab s)
      exact ⟨this.1.trans h.1, by omega⟩

theorem outerLoop_count (ext : Ext K) (vs : List (View K)) (n : Nat) (s : LM K) :
    (outerLoop ext vs n s).outer ≤ s.outer + n + 1 ∧ (outerLoop ext vs n s).lambdas.length ≤ s.lambdas.length + 11 * (n + 1) := by
  induction n generalizing s with
  | zero =>
    have := innerLoop_count ext vs (normalEq vs s.sol) 10 { s with outer := s.outer + 1 }
    simp only [outerLoop]
    dsimp only at this
    omega
  | succ n ih =>
    have h := innerLoop_count ext vs (normalEq vs s.sol) 10 { s with outer := s.outer + 1 }
    simp only [outerLoop]
    split
    · have := ih (innerLoop ext vs (normalEq vs s.sol) 10 { s with outer := s.outer + 1 })
      dsimp only at h
      omega
    · dsimp only at h
      omega

/-- C55: at most 11 passes of the outer loop and 121 solver calls, for every scalar type and every linear solver. -/
theorem C55_iterations (ext : Ext K) (vs : List (View K)) (pw : Vec3 K) :
    (outerLoop ext vs 10 (lmInit vs pw)).outer ≤ 11 ∧ (outerLoop ext vs 10 (lmInit vs pw)).lambdas.length ≤ 121 := by
  have := outerLoop_count ext vs 10 (lmInit vs pw)
  simpa [lmInit] using this

/-- C55: for every scalar type with a transitive comparison and every linear solver, the function reports success, and the result is the unchanged start (after conversion to
inverse depth and back) or has strictly smaller cost. -/
theorem C55_cost (htr : ∀ a b c : K, ScalarFn.lt a b = true → ScalarFn.lt b c = true → ScalarFn.lt a c = true)
    (ext : Ext K) (qs : List (Quat K)) (ps : List (Vec3 K)) (ns : List (Vec2 K)) (pw : Vec3 K) (ok : Bool) (p : Vec3 K)
    (h : iterative ext qs ps ns pw = .ok (ok, p)) : ok = true ∧ ∃ vs, views qs ps ns = .ok vs ∧
      (p = toPoint (toParam pw) ∨ ScalarFn.lt (cost vs p) (cost vs pw) = true) := by
  obtain ⟨vs, hv, h⟩ := Res.bind_eq_ok.1 h
  simp only [Res.ok.injEq, Prod.mk.injEq] at h
  obtain ⟨rfl, rfl⟩ := h
  refine ⟨rfl, vs, hv, ?_⟩
  rcases (outerLoop_inv htr ext vs pw 10 _ ⟨.inl ⟨rfl, rfl⟩⟩ : LMInv vs pw (outerLoop ext vs 10 (lmInit vs pw))).best with ⟨a, _⟩ | ⟨a, b⟩
  · exact .inl (by rw [a])
  · exact .inr (by rw [← a]; exact b)

theorem views_ok (qs : List (Quat K)) (ps : List (Vec3 K)) (ns : List (Vec2 K)) (h1 : qs.length ≤ ps.length) (h2 : qs.length ≤ ns.length) :
    ∃ vs, views qs ps ns = .ok vs := by
  induction qs generalizing ps ns with
  | nil => exact ⟨[], rfl⟩
  | cons q qs ih =>
    cases ps with
    | nil => simp at h1
    | cons p ps =>
      cases ns with
      | nil => simp at h2
      | cons n ns =>
        obtain ⟨vs, e⟩ := ih ps ns (by simpa using h1) (by simpa using h2)
        exact ⟨_, by simp only [views, e, Res.bind_ok]; rfl⟩

/-- C55: with a pose and an observation per view the function always returns, free of undefined behaviour. -/
theorem C55_defined (ext : Ext K) (qs : List (Quat K)) (ps : List (Vec3 K)) (ns : List (Vec2 K)) (pw : Vec3 K)
    (h1 : qs.length ≤ ps.length) (h2 : qs.length ≤ ns.length) : ∃ p, iterative ext qs ps ns pw = .ok (true, p) := by
  obtain ⟨vs, e⟩ := views_ok qs ps ns h1 h2
  exact ⟨_, by simp only [iterative, e, Res.bind_ok]; rfl⟩

end generic

theorem PReal.lt_trans' (a b c : PReal) (h1 : ScalarFn.lt a b = true) (h2 : ScalarFn.lt b c = true) : ScalarFn.lt a c = true := by
  cases a with
  | nan => exact absurd h1 (by simp [ScalarFn.lt, PReal.cmp])
  | of a =>
    cases b with
    | nan => exact absurd h1 (by simp [ScalarFn.lt, PReal.cmp])
    | of b =>
      cases c with
      | nan => exact absurd h2 (by simp [ScalarFn.lt, PReal.cmp])
      | of c =>
        simp only [ScalarFn.lt, PReal.cmp, decide_eq_true_eq] at *
        exact h1.trans h2

/-- C55 (for start points with non-zero world z): with NaN taken into account, the result is the start point or a point of finite, strictly smaller total squared reprojection error.
Missing: start points with zero world z, `C55_zero_z`; rounding of the conversion to inverse depth and back. -/
theorem C55_cost_partial (ext : Ext PReal) (qs : List (Quat PReal)) (ps : List (Vec3 PReal)) (ns : List (Vec2 PReal)) (pw : Vec3 ℝ) (hz : pw.z ≠ 0)
    (ok : Bool) (p : Vec3 PReal) (h : iterative ext qs ps ns pw.emb = .ok (ok, p)) : ∃ vs, views qs ps ns = .ok vs ∧
      (p = pw.emb ∨ ScalarFn.lt (cost vs p) (cost vs pw.emb) = true) := by
  obtain ⟨-, vs, hv, h⟩ := C55_cost PReal.lt_trans' ext qs ps ns pw.emb ok p h
  refine ⟨vs, hv, h.imp (fun e => ?_) id⟩
  rw [e]
  have hz1 : (1 : ℝ) / pw.z ≠ 0 := one_div_ne_zero hz
  have l1 : (lit 1 : PReal) = .of 1 := by rw [PReal.of_lit]; simp
  simp only [toPoint, toParam, Vec3.emb, l1]
  rw [PReal.of_div _ _ hz, PReal.of_div _ _ hz, PReal.of_div _ _ hz, PReal.of_div _ _ hz1, PReal.of_div _ _ hz1, PReal.of_div _ _ hz1]
  simp only [Vec3.mk.injEq, PReal.of.injEq]
  refine ⟨?_, ?_, ?_⟩ <;> field_simp

/-- C55 is false for a start point in the world plane z = 0: the result is NaN although the start point has finite cost, for every linear solver. -/
theorem C55_zero_z (ext : Ext PReal) (x y : ℝ) (qs : List (Quat PReal)) (ps : List (Vec3 PReal)) (ns : List (Vec2 PReal)) (vs : List (View PReal))
    (hv : views qs ps ns = .ok vs) (hne : vs ≠ []) : iterative ext qs ps ns ⟨.of x, .of y, .of 0⟩ = .ok (true, ⟨.nan, .nan, .nan⟩) := by
  have hres : ∀ (v : View PReal) (s : Vec3 PReal), s.x = .nan → residual v.q v.p s v.n = .nan := by
    intro v s h
    simp [residual, Quat.rotate, h, PReal.nan_add, PReal.nan_div, PReal.nan_sub, Vec2.sqNorm, PReal.nan_mul]
  have hfold : ∀ (l : List (View PReal)) (s : Vec3 PReal), s.x = .nan → l.foldl (fun c v => c + residual v.q v.p s v.n) .nan = .nan := by
    intro l s h
    induction l with
    | nil => rfl
    | cons v l ih => rw [List.foldl_cons, PReal.nan_add, ih]
  have hcost : ∀ s : Vec3 PReal, s.x = .nan → cost vs s = .nan := by
    intro s h
    cases vs with
    | nil => exact absurd rfl hne
    | cons v l => rw [cost, List.foldl_cons, hres v s h, PReal.add_nan, hfold l s h]
  have hbody : ∀ (ab) (s : LM PReal), s.sol = ⟨.nan, .nan, .nan⟩ → (innerBody ext vs ab s).sol = ⟨.nan, .nan, .nan⟩ := by
    intro ab s h
    have hc : cost vs (toPoint (s.sol - ext.ldlt3 (ab.1 + Mat3.smul s.lambda .one) ab.2)) = .nan := by
      apply hcost
      simp [toPoint, h, PReal.nan_sub, PReal.nan_div]
    simp only [innerBody, hc]
    exact h
  have hinner : ∀ (ab) (n : Nat) (s : LM PReal), s.sol = ⟨.nan, .nan, .nan⟩ → (innerLoop ext vs ab n s).sol = ⟨.nan, .nan, .nan⟩ := by
    intro ab n
    induction n with
    | zero => exact hbody ab
    | succ n ih =>
      intro s h
      simp only [innerLoop]
      split
      · exact hbody ab s h
      · exact ih _ (hbody ab s h)
  have houter : ∀ (n : Nat) (s : LM PReal), s.sol = ⟨.nan, .nan, .nan⟩ → (outerLoop ext vs n s).sol = ⟨.nan, .nan, .nan⟩ := by
    intro n
    induction n with
    | zero => intro s h; exact hinner _ _ _ h
    | succ n ih =>
      intro s h
      simp only [outerLoop]
      split
      · exact ih _ (hinner _ _ _ h)
      · exact hinner _ _ _ h
  have h0 : (lmInit vs ⟨.of x, .of y, .of 0⟩).sol = ⟨.nan, .nan, .nan⟩ := by
    simp only [lmInit, toParam, PReal.div_zero]
  simp only [iterative, hv, Res.bind_ok, houter 10 _ h0]
  rfl

/-- The cost of the start point of such a case is finite: a camera at (0,0,-1) sees the world origin exactly. -/
theorem C55_zero_z_witness (ext : Ext PReal) : ∃ (qs : List (Quat PReal)) (ps : List (Vec3 PReal)) (ns : List (Vec2 PReal)) (vs : List (View PReal)) (pw p : Vec3 PReal),
    views qs ps ns = .ok vs ∧ iterative ext qs ps ns pw = .ok (true, p) ∧ cost vs pw = .of 0 ∧ cost vs p = .nan := by
  have e1 : (Quat.one : Quat PReal) = (Quat.one : Quat ℝ).emb := rfl
  have er : ∀ v : Vec3 ℝ, (Quat.one : Quat PReal).inverse.rotate v.emb = v.emb := by
    intro v
    rw [e1, Quat.emb_inverse, Quat.emb_rotate, ex_rot]
  refine ⟨[.one], [(⟨0, 0, -1⟩ : Vec3 ℝ).emb], [⟨.of 0, .of 0⟩], _, ⟨.of 0, .of 0, .of 0⟩, _, rfl, C55_zero_z ext 0 0 _ _ _ _ rfl (by simp), ?_, ?_⟩
  · simp only [cost, List.foldl_cons, List.foldl_nil, residual, Vec3.emb_neg, er]
    have : (⟨.of 0, .of 0, .of 0⟩ : Vec3 PReal) = (⟨0, 0, 0⟩ : Vec3 ℝ).emb := rfl
    rw [this, er, Vec3.emb_add]
    simp [Vec3.emb, Vec2.sqNorm, PReal.of_div, PReal.of_sub, PReal.of_mul, PReal.of_add, PReal.zero_def]
  · simp [cost, residual, Quat.rotate, PReal.nan_add, PReal.nan_div, PReal.nan_sub, Vec2.sqNorm, PReal.nan_mul, PReal.add_nan]

/-- C55: the damping of every solver call lies within [1e-10, 1e12], in exact arithmetic, for every linear solver. -/
theorem C55_damping (ext : Ext ℝ) (vs : List (View ℝ)) (pw : Vec3 ℝ) :
    ∀ l ∈ (outerLoop ext vs 10 (lmInit vs pw)).lambdas, (1 : ℝ) / 10 ^ 10 ≤ l ∧ l ≤ 10 ^ 12 := by
  let B : ℝ → Prop := fun l => (1 : ℝ) / 10 ^ 10 ≤ l ∧ l ≤ 10 ^ 12
  let I : LM ℝ → Prop := fun s => B s.lambda ∧ ∀ l ∈ s.lambdas, B l
  have hbody : ∀ ab s, I s → I (innerBody ext vs ab s) := by
    intro ab s ⟨h1, h2⟩
    have hl : ∀ l ∈ s.lambda :: s.lambdas, B l := by
      intro l hl
      rcases List.mem_cons.1 hl with rfl | hl
      · exact h1
      · exact h2 l hl
    have h3 : (0 : ℝ) < s.lambda := lt_of_lt_of_le (by positivity) h1.1
    simp only [B] at h1
    unfold innerBody
    dsimp only
    split
    · refine ⟨?_, hl⟩
      simp only [ScalarFn.lt_real, ScalarFn.lit_real, decide_eq_true_eq, B]
      push_cast
      split
      · rename_i h; constructor <;> [skip; skip] <;> norm_num at * <;> linarith
      · norm_num
    · refine ⟨?_, hl⟩
      simp only [ScalarFn.lt_real, ScalarFn.lit_real, decide_eq_true_eq, B]
      push_cast
      split
      · rename_i h; constructor <;> norm_num at * <;> linarith
      · norm_num
  have hinner : ∀ ab n s, I s → I (innerLoop ext vs ab n s) := by
    intro ab n
    induction n with
    | zero => exact hbody ab
    | succ n ih =>
      intro s h
      simp only [innerLoop]
      split
      · exact hbody ab s h
      · exact ih _ (hbody ab s h)
  have houter : ∀ n s, I s → I (outerLoop ext vs n s) := by
    intro n
    induction n with
    | zero => intro s h; exact hinner _ _ _ h
    | succ n ih =>
      intro s h
      simp only [outerLoop]
      split
      · exact ih _ (hinner _ _ _ h)
      · exact hinner _ _ _ h
  have h0 : I (lmInit vs pw) := by
    refine ⟨?_, by simp [lmInit]⟩
    simp only [lmInit, B, ScalarFn.lit_real]
    push_cast
    norm_num
  exact (houter 10 _ h0).2

/-! ### C56 -/

/-- The predicted observation for inverse-depth parameters `(a, b, c)`: projection of `R (a, b, 1) + c t`. -/
noncomputable def predicted (q : Quat ℝ) (t : Vec3 ℝ) (x : Vec3 ℝ) : Vec2 ℝ :=
  let h := q.rotate ⟨x.x, x.y, 1⟩ + .smul x.z t
  ⟨h.x / h.z, h.y / h.z⟩

/-- C56: in every direction `d`, the Jacobian times `d` is the derivative of the predicted observation, wherever the depth is not zero. -/
theorem C56_jacobian (q : Quat ℝ) (t x d : Vec3 ℝ) (hz : (q.rotate ⟨x.x, x.y, 1⟩ + Vec3.smul x.z t).z ≠ 0) :
    HasDeriv2 (fun e => predicted q t (x + .smul e d)) ((jacobian q t x).mulVec d) 0 := by
  have h1 : HasDeriv3 (fun e => (⟨x.x + e * d.x, x.y + e * d.y, 1⟩ : Vec3 ℝ)) ⟨d.x, d.y, 0⟩ 0 := by
    refine ⟨?_, ?_, hasDerivAt_const _ _⟩
    · simpa using ((hasDerivAt_id (0 : ℝ)).mul_const d.x).const_add x.x
    · simpa using ((hasDerivAt_id (0 : ℝ)).mul_const d.y).const_add x.y
  have hm : ∀ k : ℝ, HasDerivAt (fun e : ℝ => (x.z + e * d.z) * k) (d.z * k) 0 := by
    intro k
    simpa using (((hasDerivAt_id (0 : ℝ)).mul_const d.z).const_add x.z).mul_const k
  have h2 : HasDeriv3 (fun e => Vec3.smul (x.z + e * d.z) t) (.smul d.z t) 0 := ⟨hm t.x, hm t.y, hm t.z⟩
  have h3 := (h1.rotate q).add h2
  have h4 := h3.proj_at (q.rotate ⟨x.x, x.y, 1⟩ + Vec3.smul x.z t) (by simp) hz
  have hh : hvec q t x = q.rotate ⟨x.x, x.y, 1⟩ + Vec3.smul x.z t := by
    simp [hvec, Quat.toMat_mulVec]
  have hd : q.rotate ⟨d.x, d.y, 0⟩ + Vec3.smul d.z t = ⟨q.toMat.r0.x * d.x + q.toMat.r0.y * d.y + d.z * t.x,
      q.toMat.r1.x * d.x + q.toMat.r1.y * d.y + d.z * t.y, q.toMat.r2.x * d.x + q.toMat.r2.y * d.y + d.z * t.z⟩ := by
    rw [← Quat.toMat_mulVec]
    apply Vec3.ext <;> simp [Mat3.mulVec, Vec3.dot]
  refine HasDeriv2.congr h4 ?_
  rw [hd]
  simp only [jacobian, hh, Mat23.mulVec, Vec3.dot]
  generalize q.rotate ⟨x.x, x.y, 1⟩ + Vec3.smul x.z t = h at hz
  simp only [Vec3.sub_x, Vec3.sub_y, Vec3.sub_z, Vec3.smul_x, Vec3.smul_y, Vec3.smul_z, ScalarFn.lit_real, Rat.cast_one]
  ext <;> simp only <;> field_simp <;> ring

/-- C56: the residual used with that Jacobian is predicted minus observed, and its square is the cost used for acceptance. -/
theorem C56_residual (q : Quat ℝ) (t x : Vec3 ℝ) (n : Vec2 ℝ) : jresidual q t x n = predicted q t x - n ∧
    (x.z ≠ 0 → residual q t (toPoint x) n = (jresidual q t x n).sqNorm) := by
  have hh : hvec q t x = q.rotate ⟨x.x, x.y, 1⟩ + Vec3.smul x.z t := by
    simp [hvec, Quat.toMat_mulVec]
  refine ⟨by simp only [jresidual, hh, predicted], fun hz => ?_⟩
  simp only [residual, jresidual, hh]
  have e : q.rotate (toPoint x) + t = .smul (1 / x.z) (q.rotate ⟨x.x, x.y, 1⟩ + Vec3.smul x.z t) := by
    rw [← Quat.toMat_mulVec, ← Quat.toMat_mulVec]
    apply Vec3.ext <;> simp only [toPoint, Mat3.mulVec, Vec3.dot, Vec3.add_x, Vec3.add_y, Vec3.add_z, Vec3.smul_x, Vec3.smul_y, Vec3.smul_z, ScalarFn.lit_real, Rat.cast_one] <;>
      field_simp
  rw [e]
  have hk : (1 : ℝ) / x.z ≠ 0 := one_div_ne_zero hz
  simp only [Vec3.smul_x, Vec3.smul_y, Vec3.smul_z]
  rw [mul_div_mul_left _ _ hk, mul_div_mul_left _ _ hk]

/-- The hypotheses of C56 are met, for instance, by the identity pose. -/
example : ((Quat.one : Quat ℝ).rotate ⟨1, 2, 1⟩ + Vec3.smul (1/2 : ℝ) (⟨1, 0, 0⟩ : Vec3 ℝ)).z ≠ 0 := by
  rw [Quat.rotate_one]
  simp

/-- The hypotheses of C55 are met by two views; the function returns. -/
example (ext : Ext PReal) : ∃ p, iterative ext [.one, .one] [0, 0] [⟨0, 0⟩, ⟨0, 0⟩] (⟨1, 1, 1⟩ : Vec3 ℝ).emb = .ok (true, p) :=
  C55_defined ext _ _ _ _ (by simp) (by simp)

end Vio.Triang
