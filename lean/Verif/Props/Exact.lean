/-
C91: in a noise-free world the measurement update leaves the state alone.
-/
import Verif.Spec.Exact
import Verif.Props.Select
import Verif.Props.UpdateJac
import Verif.Props.Reckon

set_option linter.unusedSectionVars false

namespace Vio
open Spec WinSpec

namespace Triang

/-- Exact observations of some point and a correct decomposition: the point the linear triangulation returns reproduces every observation (up to the sign of the depth), even when it is not
the observed point. -/
theorem analytic_consistent (ext : Ext ℝ) (vs : List (View ℝ)) (pw p X : Vec3 ℝ) (hsvd : ∀ a, IsLastSingular a (ext.svdLast a))
    (hx : ∀ v ∈ vs, ExactObs v.q v.p X v.n) (h : analytic ext (vs.map (·.q)) (vs.map (·.p)) (vs.map (·.n)) pw = .ok (true, p)) :
    ∀ v ∈ vs, v.n.x * (v.q.inverse.rotate (p - v.p)).z = (v.q.inverse.rotate (p - v.p)).x ∧
      v.n.y * (v.q.inverse.rotate (p - v.p)).z = (v.q.inverse.rotate (p - v.p)).y := by
  unfold analytic at h
  split at h
  · simp at h
  obtain ⟨rows, hr, h⟩ := Res.bind_eq_ok.1 h
  dsimp only at h
  split at h
  · simp at h
  rename_i hn h3
  obtain ⟨good, -, h⟩ := Res.bind_eq_ok.1 h
  simp only [Res.ok.injEq, Prod.mk.injEq] at h
  obtain ⟨-, h⟩ := h
  have h1 : (vs.map (·.q)).length = (vs.map (·.p)).length := by simp
  have h2 : (vs.map (·.q)).length = (vs.map (·.n)).length := by simp
  have hker := svd_in_kernel (stack2 rows) X _ (hsvd _) (fun k => system_kernel _ _ _ X k h1 h2 (by
    intro i hi
    simp only [List.getElem_map]
    exact hx _ (List.getElem_mem _)) rows hr)
  obtain ⟨rows', e', hl, hrow⟩ := systemRows_ok _ _ _ h1.le h2.le
  rw [hr] at e'
  cases e'
  generalize ext.svdLast (stack2 rows) = x at *
  have hx3 : x 3 ≠ 0 := by
    intro h0
    apply h3
    simp [h0]
  have hh : ∀ j ∈ Finset.range 4, x j = homog p (x 3) j := by
    intro j hj
    rw [← h]
    have : j = 0 ∨ j = 1 ∨ j = 2 ∨ j = 3 := by have := Finset.mem_range.1 hj; omega
    rcases this with rfl | rfl | rfl | rfl <;> simp [homog] <;> field_simp
  intro v hv
  obtain ⟨i, hi, rfl⟩ := List.getElem_of_mem hv
  have hrowi := hrow i (by simpa using hi)
  simp only [List.getElem_map] at hrowi
  have key : ∀ r < 2, ∑ j ∈ Finset.range 4, viewRow vs[i].q vs[i].p vs[i].n r j * homog p (x 3) j = 0 := by
    intro r hr2
    have := hker (2 * i + r) (by
      have : rows.length = vs.length := by simpa using hl
      simp only [stack2]
      omega)
    rw [← this]
    refine Finset.sum_congr rfl fun j hj => ?_
    rw [← hh j hj]
    simp only [stack2, show (2 * i + r) / 2 = i by omega, show (2 * i + r) % 2 = r by omega, hrowi]
  obtain ⟨m1, m2⟩ := viewRow_mul vs[i].q vs[i].p vs[i].n p (x 3)
  rw [key 0 (by omega)] at m1
  rw [key 1 (by omega)] at m2
  exact ⟨sub_eq_zero.1 ((mul_eq_zero.1 m1.symm).resolve_left hx3), sub_eq_zero.1 ((mul_eq_zero.1 m2.symm).resolve_left hx3)⟩

end Triang

namespace Update

section views
variable {K T : Type} [Add K] [Sub K] [Mul K] [Neg K] [Div K] [Zero K] [One K] [ScalarFn K]
  [TimeOps T] [TimeCast T K]

theorem obsViews_mem (m : FrameMgr K T) (f : Frame K T) (ns : List (Nat × Vec2 K)) : ∀ vs, obsViews m f ns = .ok vs → ∀ v,
    v ∈ vs ↔ ∃ c n e, (c, n) ∈ ns ∧ m.extrinsics[c]? = some e ∧ v = ⟨f.q.mul e.q, f.q.rotate e.p + f.p, n⟩ := by
  induction ns with
  | nil => intro vs h v; cases h; simp
  | cons x ns ih =>
    obtain ⟨c, n⟩ := x
    intro vs h v
    rw [obsViews] at h
    obtain ⟨e, he, h⟩ := Res.bind_eq_ok.1 h
    obtain ⟨vs', hv, h⟩ := Res.bind_eq_ok.1 h
    cases h
    have he' : m.extrinsics[c]? = some e := by
      unfold idx at he
      split at he
      · cases he; assumption
      · cases he
    rw [List.mem_cons, ih vs' hv]
    constructor
    · rintro (rfl | ⟨c', n', e', h1, h2, h3⟩)
      · exact ⟨c, n, e, by simp, he', rfl⟩
      · exact ⟨c', n', e', List.mem_cons_of_mem _ h1, h2, h3⟩
    · rintro ⟨c', n', e', h1, h2, h3⟩
      rcases List.mem_cons.1 h1 with h1 | h1
      · cases h1
        rw [he'] at h2
        cases h2
        exact .inl h3
      · exact .inr ⟨c', n', e', h1, h2, h3⟩

/-- The views of a feature: one for every camera observation by every frame. -/
theorem featViews_mem (m : FrameMgr K T) (first : Nat) (os : List (Obs K)) : ∀ i vs, featViews m first i os = .ok vs → ∀ v,
    v ∈ vs ↔ ∃ j o f c n e, os[j]? = some o ∧ m.getFrame (add32 (i + j) first) = some f ∧ (c, n) ∈ o.norms ∧ m.extrinsics[c]? = some e ∧
      v = ⟨f.q.mul e.q, f.q.rotate e.p + f.p, n⟩ := by
  induction os with
  | nil => intro i vs h v; cases h; simp
  | cons o os ih =>
    intro i vs h v
    rw [featViews] at h
    obtain ⟨f, hf, h⟩ := Res.bind_eq_ok.1 h
    obtain ⟨v1, hv1, h⟩ := Res.bind_eq_ok.1 h
    obtain ⟨v2, hv2, h⟩ := Res.bind_eq_ok.1 h
    cases h
    have hf' : m.getFrame (add32 i first) = some f := by
      unfold deref at hf
      split at hf
      · cases hf; assumption
      · cases hf
    rw [List.mem_append, obsViews_mem m f _ v1 hv1, ih (i + 1) v2 hv2]
    constructor
    · rintro (⟨c, n, e, h1, h2, h3⟩ | ⟨j, o', f', c, n, e, h1, h2, h3⟩)
      · exact ⟨0, o, f, c, n, e, rfl, hf', h1, h2, h3⟩
      · exact ⟨j + 1, o', f', c, n, e, by simpa using h1, by rwa [show i + (j + 1) = i + 1 + j by omega], h3⟩
    · rintro ⟨j, o', f', c, n, e, h1, h2, h3⟩
      cases j with
      | zero =>
        simp only [List.getElem?_cons_zero, Option.some.injEq] at h1
        subst h1
        rw [Nat.add_zero, hf'] at h2
        cases h2
        exact .inl ⟨c, n, e, h3⟩
      | succ j =>
        exact .inr ⟨j, o', f', c, n, e, by simpa using h1, by rwa [show i + 1 + j = i + (j + 1) by omega], h3⟩

end views

variable {T : Type} [TimeOps T] [TimeCast T ℝ]

theorem camPoint_eq (f : Frame ℝ T) (e : Extrinsic ℝ) (X : Vec3 ℝ) :
    camPoint f e X = e.q.inverse.rotate (f.q.inverse.rotate (X - f.p) - e.p) := by
  simp only [camPoint, bodyPoint, Quat.toMat_mulVec]

/-- The pose of a view is the pose of the camera: both say where the camera sees a point. -/
theorem view_camPoint (f : Frame ℝ T) (e : Extrinsic ℝ) (hf : f.q.sqNorm = 1) (he : e.q.sqNorm = 1) (X : Vec3 ℝ) :
    (f.q.mul e.q).inverse.rotate (X - (f.q.rotate e.p + f.p)) = camPoint f e X := by
  rw [camPoint_eq, Quat.inverse_mul _ _ hf he, Quat.rotate_mul _ _ (Quat.sqNorm_inverse_of_unit _ he) (Quat.sqNorm_inverse_of_unit _ hf)]
  congr 1
  have : X - (f.q.rotate e.p + f.p) = (X - f.p) - f.q.rotate e.p := by apply Vec3.ext <;> simp <;> ring
  rw [this, Quat.rotate_sub _ (X - f.p), ← Quat.rotate_mul _ _ (Quat.sqNorm_inverse_of_unit _ hf) hf, Quat.inverse_mul_of_unit _ hf, Quat.rotate_one]

/-- The stored point of a feature reproduces its observations, up to the sign of the depth. -/
def Consistent (m : FrameMgr ℝ T) (ft : Feature ℝ) : Prop :=
  ∀ j o, ft.observes[j]? = some o → ∀ f, m.getFrame (add32 j ft.first) = some f → ∀ c n, (c, n) ∈ o.norms → ∀ e, m.extrinsics[c]? = some e →
    n.x * (camPoint f e ft.pw).z = (camPoint f e ft.pw).x ∧ n.y * (camPoint f e ft.pw).z = (camPoint f e ft.pw).y

/-- A triangulated feature with exact observations is consistent. -/
theorem Triangulated.consistent (ext : Ext ℝ) (w : Win ℝ T) (r b : Nat) (p X : Vec3 ℝ) (hsvd : ∀ a, IsLastSingular a (ext.svdLast a)) (hw : WinOk w.frm b)
    (hu : (∀ f ∈ w.frm.frames, f.q.sqNorm = 1) ∧ ∀ e ∈ w.frm.extrinsics, e.q.sqNorm = 1)
    (hX : SeesExactly w.frm (w.feat.heap r) X) (h : Triangulated ext w r p) (ft : Feature ℝ) (h1 : ft.observes = (w.feat.heap r).observes)
    (h2 : ft.first = (w.feat.heap r).first) (h3 : ft.pw = p) : Consistent w.frm ft := by
  obtain ⟨vs, hv, ha⟩ := h
  have hmem := featViews_mem w.frm _ _ 0 vs hv
  have hunit : ∀ {k f}, w.frm.getFrame k = some f → f ∈ w.frm.frames ∧ f.id = k := fun hf => ((C13_getFrame w.frm b hw.ids _).1 _).1 hf
  have hex : ∀ v ∈ vs, ExactObs v.q v.p X v.n := by
    intro v hvm
    obtain ⟨j, o, f, c, n, e, i1, i2, i3, i4, rfl⟩ := (hmem v).1 hvm
    rw [Nat.zero_add] at i2
    obtain ⟨f1, f2⟩ := hunit i2
    obtain ⟨d1, d2⟩ := hX j o i1 f f1 f2 c n i3 e i4
    unfold ExactObs
    dsimp only
    rw [view_camPoint f e (hu.1 f f1) (hu.2 e (List.mem_of_getElem? i4)), camPoint_eq]
    refine ⟨d1, ?_, ?_⟩ <;> rw [d2] <;> rfl
  have hc := Triang.analytic_consistent ext vs _ p X hsvd hex ha
  intro j o ho f hf c n hcn e he
  rw [h1] at ho
  rw [h2] at hf
  have := hc _ ((hmem _).2 ⟨j, o, f, c, n, e, ho, by rwa [Nat.zero_add], hcn, he, rfl⟩)
  dsimp only at this
  obtain ⟨f1, f2⟩ := hunit hf
  rw [view_camPoint f e (hu.1 f f1) (hu.2 e (List.mem_of_getElem? he))] at this
  rw [h3]
  exact this

/-- The last column, the residual, vanishes. -/
def LastZero (a : DMat ℝ) : Prop := ∀ x < a.rows, a.e x (a.cols - 1) = 0

theorem setBlock_inv {a a' b : DMat ℝ} {i j r c : Nat} (h : a.setBlock i j r c b = .ok a') :
    i + r ≤ a.rows ∧ j + c ≤ a.cols ∧ b.rows = r ∧ b.cols = c ∧ a'.rows = a.rows ∧ a'.cols = a.cols ∧
    ∀ x y, a'.e x y = if i ≤ x ∧ x < i + r ∧ j ≤ y ∧ y < j + c then b.e (x - i) (y - j) else a.e x y := by
  unfold DMat.setBlock at h
  split at h
  · cases h
  · split at h
    · cases h
    · rename_i h1 h2
      rw [not_not] at h1 h2
      cases h
      exact ⟨h1.1, h1.2, h2.1, h2.2, rfl, rfl, fun _ _ => rfl⟩

theorem block_inv {a a' : DMat ℝ} {i j r c : Nat} (h : a.block i j r c = .ok a') :
    i + r ≤ a.rows ∧ j + c ≤ a.cols ∧ a'.rows = r ∧ a'.cols = c ∧ ∀ x y, a'.e x y = a.e (i + x) (j + y) := by
  unfold DMat.block at h
  split at h
  · rename_i h1
    cases h
    exact ⟨h1.1, h1.2, rfl, rfl, fun _ _ => rfl⟩
  · cases h

theorem mul_inv {a b c : DMat ℝ} (h : a.mul b = .ok c) : a.cols = b.rows ∧ c.rows = a.rows ∧ c.cols = b.cols ∧
    ∀ i j, c.e i j = sumTo a.cols (fun k => a.e i k * b.e k j) := by
  unfold DMat.mul at h
  split at h
  · rename_i h1
    cases h
    exact ⟨h1, rfl, rfl, fun _ _ => rfl⟩
  · cases h

/-- A block left of the last column keeps it. -/
theorem LastZero.setBlock {a a' b : DMat ℝ} {i j r c : Nat} (ha : LastZero a) (hj : j + c ≤ a.cols - 1) (h : a.setBlock i j r c b = .ok a') : LastZero a' := by
  obtain ⟨-, -, -, -, h5, h6, h7⟩ := setBlock_inv h
  intro x hx
  rw [h6, h7, if_neg (by omega)]
  exact ha x (by omega)

theorem measNorm_lastZero (m : FrameMgr ℝ T) (f : Frame ℝ T) (fid front back : Nat) (pw : Vec3 ℝ) (row c : Nat) (n : Vec2 ℝ) (a a' : DMat ℝ)
    (hcols : a.cols = hxCols m + 4)
    (hp : (poseCols m.extrinsics.length fid front back).1 + 3 ≤ hxCols m + 3 ∧ (poseCols m.extrinsics.length fid front back).2 + 3 ≤ hxCols m + 3)
    (hz : ∀ e, m.extrinsics[c]? = some e → n.x * (camPoint f e pw).z = (camPoint f e pw).x ∧ n.y * (camPoint f e pw).z = (camPoint f e pw).y)
    (ha : LastZero a) (h : measNorm m f fid front back pw row a c n = .ok a') : LastZero a' ∧ a'.cols = a.cols := by
  unfold measNorm at h
  obtain ⟨e, he, h⟩ := Res.bind_eq_ok.1 h
  have he' : m.extrinsics[c]? = some e := by
    unfold idx at he
    split at he
    · cases he; assumption
    · cases he
  have hc : c < m.extrinsics.length := by
    by_contra hc
    rw [List.getElem?_eq_none (by omega)] at he'
    simp at he'
  have hh : hxCols m = 15 + m.extrinsics.length * 6 + (m.frames.length * 6 - 6) := rfl
  split at h
  · rename_i hd
    simp only [ScalarFn.lt_real, decide_eq_true_eq, ScalarFn.fabs_real, zeroTol, ScalarFn.lit_real] at hd
    have hz0 : (camPoint f e pw).z ≠ 0 := by
      intro h0
      rw [h0, abs_zero] at hd
      norm_num at hd
    obtain ⟨z1, z2⟩ := hz e he'
    have hres : residual f e pw n = ⟨0, 0⟩ := by
      unfold residual
      dsimp only
      rw [← z1, ← z2, mul_div_cancel_right₀ _ hz0, mul_div_cancel_right₀ _ hz0]
      apply Vec2.ext <;> simp
    simp only [setB23, imuStateSize] at h
    obtain ⟨a1, h1, h⟩ := Res.bind_eq_ok.1 h
    obtain ⟨a2, h2, h⟩ := Res.bind_eq_ok.1 h
    obtain ⟨a3, h3, h⟩ := Res.bind_eq_ok.1 h
    obtain ⟨a4, h4, h⟩ := Res.bind_eq_ok.1 h
    obtain ⟨a5, h5, h6⟩ := Res.bind_eq_ok.1 h
    have l1 : LastZero a1 := by
      obtain ⟨-, -, -, -, q5, q6, q7⟩ := setBlock_inv h1
      intro x hx
      rw [q6, q7]
      split
      · rw [hres]; simp
      · exact ha x (by omega)
    have c1 := (setBlock_inv h1).2.2.2.2.2.1
    have c2 := (setBlock_inv h2).2.2.2.2.2.1
    have c3 := (setBlock_inv h3).2.2.2.2.2.1
    have c4 := (setBlock_inv h4).2.2.2.2.2.1
    have c5 := (setBlock_inv h5).2.2.2.2.2.1
    have c6 := (setBlock_inv h6).2.2.2.2.2.1
    have l2 := l1.setBlock (by omega) h2
    have l3 := l2.setBlock (by omega) h3
    have l4 := l3.setBlock (by omega) h4
    have l5 := l4.setBlock (by omega) h5
    exact ⟨l5.setBlock (by omega) h6, by omega⟩
  · cases h
    exact ⟨ha, rfl⟩

theorem measNorms_lastZero (m : FrameMgr ℝ T) (f : Frame ℝ T) (fid front back : Nat) (pw : Vec3 ℝ)
    (hp : (poseCols m.extrinsics.length fid front back).1 + 3 ≤ hxCols m + 3 ∧ (poseCols m.extrinsics.length fid front back).2 + 3 ≤ hxCols m + 3)
    (ns : List (Nat × Vec2 ℝ)) : ∀ (row row' : Nat) (a a' : DMat ℝ), a.cols = hxCols m + 4 →
    (∀ c n, (c, n) ∈ ns → ∀ e, m.extrinsics[c]? = some e → n.x * (camPoint f e pw).z = (camPoint f e pw).x ∧ n.y * (camPoint f e pw).z = (camPoint f e pw).y) →
    LastZero a → measNorms m f fid front back pw row a ns = .ok (a', row') → LastZero a' ∧ a'.cols = a.cols := by
  induction ns with
  | nil => intro row row' a a' _ _ ha h; cases h; exact ⟨ha, rfl⟩
  | cons x ns ih =>
    obtain ⟨c, n⟩ := x
    intro row row' a a' hcols hz ha h
    rw [measNorms] at h
    obtain ⟨a1, h1, h⟩ := Res.bind_eq_ok.1 h
    obtain ⟨l1, c1⟩ := measNorm_lastZero m f fid front back pw row c n a a1 hcols hp (hz c n (by simp)) ha h1
    obtain ⟨l2, c2⟩ := ih _ _ _ _ (by omega) (fun c n hm => hz c n (List.mem_cons_of_mem _ hm)) l1 h
    exact ⟨l2, by omega⟩

/-- The pose columns of a frame of the window end before the last column. -/
theorem poseCols_before (m : FrameMgr ℝ T) (b : Nat) (f g l : Frame ℝ T) (hw : WinOk m b) (hg : m.frames.head? = some g) (hl : m.frames.getLast? = some l) (hf : f ∈ m.frames) :
    (poseCols m.extrinsics.length f.id g.id l.id).1 + 3 ≤ hxCols m + 3 ∧ (poseCols m.extrinsics.length f.id g.id l.id).2 + 3 ≤ hxCols m + 3 := by
  have hcols : hxCols m = 15 + m.extrinsics.length * 6 + (m.frames.length * 6 - 6) := rfl
  have hpos : 0 < m.frames.length := List.length_pos_iff.2 hw.ne
  have hget : ∀ j (h : j < m.frames.length), (m.frames[j]).id = b + j := by
    intro j hj
    have : (m.frames.map (·.id))[j]? = some (m.frames[j]).id := by rw [List.getElem?_map, List.getElem?_eq_getElem hj]; rfl
    rw [hw.ids, List.getElem?_range' hj] at this
    simp only [Option.some.injEq] at this
    omega
  have eg : g.id = b := by
    rw [List.head?_eq_getElem?, List.getElem?_eq_getElem hpos] at hg
    cases hg
    simpa using hget 0 hpos
  have el : l.id = b + (m.frames.length - 1) := by
    rw [List.getLast?_eq_getElem?, List.getElem?_eq_getElem (by omega)] at hl
    cases hl
    exact hget _ (by omega)
  obtain ⟨k, hk, rfl⟩ := List.getElem_of_mem hf
  rw [hget k hk, eg, el, poseCols_eq _ _ _ _ hw.lt hk]
  split <;> dsimp only <;> omega

theorem measLoop_lastZero (m : FrameMgr ℝ T) (ft : Feature ℝ) (b : Nat) (hw : WinOk m b) (os : List (Obs ℝ)) : ∀ (i row : Nat) (a a' : DMat ℝ), a.cols = hxCols m + 4 →
    (∀ j o, os[j]? = some o → ∀ f, m.getFrame (add32 (i + j) ft.first) = some f → ∀ c n, (c, n) ∈ o.norms → ∀ e, m.extrinsics[c]? = some e →
      n.x * (camPoint f e ft.pw).z = (camPoint f e ft.pw).x ∧ n.y * (camPoint f e ft.pw).z = (camPoint f e ft.pw).y) →
    LastZero a → measLoop m ft i row a os = .ok (some a') → LastZero a' ∧ a'.cols = a.cols := by
  induction os with
  | nil => intro i row a a' _ _ ha h; cases h; exact ⟨ha, rfl⟩
  | cons o os ih =>
    intro i row a a' hcols hz ha h
    rw [measLoop] at h
    dsimp only at h
    split at h
    · cases h
    · rename_i f hf
      obtain ⟨g, hg, h⟩ := Res.bind_eq_ok.1 h
      obtain ⟨l, hl, h⟩ := Res.bind_eq_ok.1 h
      obtain ⟨⟨a1, row1⟩, h1, h⟩ := Res.bind_eq_ok.1 h
      dsimp only at h
      obtain ⟨f1, f2⟩ := ((C13_getFrame m b hw.ids _).1 _).1 hf
      have hg' : m.frames.head? = some g := by
        unfold front at hg
        split at hg
        · cases hg; assumption
        · cases hg
      have hl' : m.frames.getLast? = some l := by
        unfold back at hl
        split at hl
        · cases hl; assumption
        · cases hl
      have hp := poseCols_before m b f g l hw hg' hl' f1
      rw [f2] at hp
      obtain ⟨l1, c1⟩ := measNorms_lastZero m f _ _ _ ft.pw hp o.norms row row1 a a1 hcols (hz 0 o rfl f (by rw [Nat.add_zero]; exact hf)) ha h1
      obtain ⟨l2, c2⟩ := ih (i + 1) row1 a1 a' (by omega) (fun j o' ho f' hf' => hz (j + 1) o' (by simpa using ho) f' (by rwa [show i + (j + 1) = i + 1 + j by omega])) l1 h
      exact ⟨l2, by omega⟩

theorem applyQt_lastZero (ext : Ext ℝ) (A a : DMat ℝ) (ha : LastZero a) : LastZero (applyQt ext A a) := by
  intro x _
  show sumTo a.rows (fun k => ext.qrQ A k x * a.e k (a.cols - 1)) = 0
  rw [sumTo_eq]
  apply Finset.sum_eq_zero
  intro k _
  rw [ha k k.2, mul_zero]

theorem project_lastZero (ext : Ext ℝ) (a p : DMat ℝ) (hc : 4 ≤ a.cols) (ha : LastZero a) (h : project ext a = .ok p) : LastZero p ∧ p.cols = a.cols - 3 := by
  unfold project at h
  obtain ⟨hf, -, h⟩ := Res.bind_eq_ok.1 h
  dsimp only at h
  split at h
  · cases h
  · have hq := applyQt_lastZero ext hf a ha
    have hqc : (applyQt ext hf a).cols = a.cols := rfl
    obtain ⟨b1, b2, b3, b4, b5⟩ := block_inv h
    refine ⟨?_, by omega⟩
    intro x hx
    rw [b5, b4, show 3 + ((applyQt ext hf a).cols - 3 - 1) = (applyQt ext hf a).cols - 1 by omega]
    exact hq _ (by omega)

theorem measFeature_lastZero (ext : Ext ℝ) (m : FrameMgr ℝ T) (ft : Feature ℝ) (b : Nat) (hw : WinOk m b) (hc : Consistent m ft) (p : DMat ℝ)
    (h : measFeature ext m ft = .ok (some p)) : LastZero p ∧ p.cols = hxCols m + 1 := by
  unfold measFeature at h
  obtain ⟨a, h1, h⟩ := Res.bind_eq_ok.1 h
  split at h
  · cases h
  · rename_i a
    obtain ⟨q, h2, h⟩ := Res.bind_eq_ok.1 h
    cases h
    obtain ⟨l1, c1⟩ := measLoop_lastZero m ft b hw ft.observes 0 0 _ a rfl (by simpa only [Nat.zero_add, Consistent] using hc) (fun x _ => rfl) h1
    have c1' : a.cols = hxCols m + 4 := c1
    obtain ⟨l2, c2⟩ := project_lastZero ext a p (by omega) l1 h2
    exact ⟨l2, by omega⟩

theorem stackLoop_lastZero (ext : Ext ℝ) (w : Win ℝ T) (b : Nat) (hw : WinOk w.frm b) (fs : List Nat) : ∀ (rc : Nat) (a a' : DMat ℝ), a.cols = hxCols w.frm + 1 →
    (∀ r ∈ fs, Consistent w.frm (w.feat.heap r)) → LastZero a → stackLoop ext w rc a fs = .ok (some a') → LastZero a' ∧ a'.cols = a.cols := by
  induction fs with
  | nil => intro rc a a' _ _ ha h; cases h; exact ⟨ha, rfl⟩
  | cons r fs ih =>
    intro rc a a' hcols hc ha h
    rw [stackLoop] at h
    obtain ⟨sub, h1, h⟩ := Res.bind_eq_ok.1 h
    split at h
    · cases h
    · rename_i p
      obtain ⟨a1, h2, h⟩ := Res.bind_eq_ok.1 h
      obtain ⟨l1, c1⟩ := measFeature_lastZero ext w.frm _ b hw (hc r (by simp)) p h1
      obtain ⟨q1, q2, q3, q4, q5, q6, q7⟩ := setBlock_inv h2
      have l2 : LastZero a1 := by
        intro x hx
        rw [q6, q7]
        split
        · rw [show a.cols - 1 - 0 = p.cols - 1 by omega]
          exact l1 _ (by omega)
        · exact ha x (by omega)
      obtain ⟨l3, c3⟩ := ih _ a1 a' (by omega) (fun r hr => hc r (List.mem_cons_of_mem _ hr)) l2 h
      exact ⟨l3, by omega⟩

theorem compress_lastZero (env : Env ℝ) (a a' : DMat ℝ) (ha : LastZero a) (h : compress env a = .ok a') : LastZero a' ∧ a'.cols = a.cols := by
  unfold compress at h
  split at h
  · rename_i hr
    obtain ⟨q, -, h⟩ := Res.bind_eq_ok.1 h
    cases h
    refine ⟨?_, rfl⟩
    intro x hx
    have hx' : x < a.cols - 1 := hx
    show (if x < a.rows ∧ a.cols - 1 < a.cols then (applyQt env.ext q a).e x (a.cols - 1) else env.junk x (a.cols - 1)) = 0
    rw [if_pos (by omega)]
    exact applyQt_lastZero env.ext q a ha x (by show x < a.rows; omega)
  · cases h
    exact ⟨ha, rfl⟩

/-- Consistent features give a measurement without residual. -/
theorem measure_lastZero (env : Env ℝ) (w : Win ℝ T) (b : Nat) (hw : WinOk w.frm b) (fs : List Nat) (hc : ∀ r ∈ fs, Consistent w.frm (w.feat.heap r)) (a : DMat ℝ)
    (h : measure env w fs = .ok (some a)) : LastZero a := by
  unfold measure at h
  obtain ⟨x, h1, h⟩ := Res.bind_eq_ok.1 h
  split at h
  · cases h
  · rename_i a1
    obtain ⟨a2, h2, h⟩ := Res.bind_eq_ok.1 h
    cases h
    obtain ⟨l1, -⟩ := stackLoop_lastZero env.ext w b hw fs 0 _ a1 rfl hc (fun x _ => rfl) h1
    exact (compress_lastZero env a1 a l1 h2).1

/-- Without residual there is no correction, whatever the gain. -/
theorem kalman_zero (ext : Ext ℝ) (noise : ℝ) (P hxr : DMat ℝ) (k : Kalman ℝ) (hz : LastZero hxr) (h : kalman ext noise P hxr = .ok k) : ∀ i, k.dx.e i 0 = 0 := by
  unfold kalman at h
  obtain ⟨H, -, h⟩ := Res.bind_eq_ok.1 h
  obtain ⟨r, hr, h⟩ := Res.bind_eq_ok.1 h
  obtain ⟨PHt, -, h⟩ := Res.bind_eq_ok.1 h
  obtain ⟨S, -, h⟩ := Res.bind_eq_ok.1 h
  obtain ⟨gain, -, h⟩ := Res.bind_eq_ok.1 h
  obtain ⟨dx, hdx, h⟩ := Res.bind_eq_ok.1 h
  obtain ⟨IKH, -, h⟩ := Res.bind_eq_ok.1 h
  obtain ⟨nc, -, h⟩ := Res.bind_eq_ok.1 h
  obtain ⟨sm, -, h⟩ := Res.bind_eq_ok.1 h
  cases h
  obtain ⟨r1, r2, r3, r4, r5⟩ := block_inv hr
  obtain ⟨m1, m2, m3, m4⟩ := mul_inv hdx
  intro i
  show dx.e i 0 = 0
  rw [m4, sumTo_eq]
  apply Finset.sum_eq_zero
  intro j _
  rw [r5, Nat.zero_add, Nat.add_zero, hz _ (by have := j.2; omega), mul_zero]

theorem deltaQ_zero : Utility.deltaQ (0 : Vec3 ℝ) = Quat.one := by
  apply Quat.ext <;> simp [Utility.deltaQ, Quat.one]

/-- A zero correction keeps a unit attitude. -/
theorem corrQuat_zero (q : Quat ℝ) (h : q.sqNorm = 1) : corrQuat q 0 = q := by
  rw [corrQuat, deltaQ_zero, Quat.mul_one', Quat.normalized_of_unit _ h]

theorem segment3_zero {dx : DMat ℝ} (hz : ∀ i, dx.e i 0 = 0) {i : Nat} {v : Vec3 ℝ} (h : dx.segment3 i = .ok v) : v = 0 := by
  unfold DMat.segment3 at h
  split at h
  · cases h
    apply Vec3.ext <;> simp [hz]
  · cases h

theorem vec_add_zero (v : Vec3 ℝ) : v + 0 = v := by apply Vec3.ext <;> simp

theorem corrExt_zero (dx : DMat ℝ) (hz : ∀ i, dx.e i 0 = 0) (es : List (Extrinsic ℝ)) : ∀ i es', (∀ e ∈ es, e.q.sqNorm = 1) → corrExt dx i es = .ok es' → es' = es := by
  induction es with
  | nil => intro i es' _ h; cases h; rfl
  | cons e es ih =>
    intro i es' hu h
    rw [corrExt] at h
    obtain ⟨dp, h1, h⟩ := Res.bind_eq_ok.1 h
    obtain ⟨dr, h2, h⟩ := Res.bind_eq_ok.1 h
    obtain ⟨rest, h3, h⟩ := Res.bind_eq_ok.1 h
    cases h
    rw [segment3_zero hz h1, segment3_zero hz h2, corrQuat_zero _ (hu e (by simp)), vec_add_zero, ih _ _ (fun e he => hu e (List.mem_cons_of_mem _ he)) h3]

theorem corrFrames_zero (dx : DMat ℝ) (hz : ∀ i, dx.e i 0 = 0) (bid o : Nat) (st : Motion ℝ) (fs : List (Frame ℝ T)) : ∀ i fs', (∀ f ∈ fs, f.q.sqNorm = 1) →
    (∀ f ∈ fs, f.id = bid → f.p = st.p ∧ f.v = st.v ∧ f.q = st.q) → corrFrames dx bid o st i fs = .ok fs' → fs' = fs := by
  induction fs with
  | nil => intro i fs' _ _ h; cases h; rfl
  | cons f fs ih =>
    intro i fs' hu hb h
    rw [corrFrames] at h
    split at h
    · rename_i hid
      cases h
      obtain ⟨b1, b2, b3⟩ := hb f (by simp) hid
      rw [← b1, ← b2, ← b3]
    · obtain ⟨dp, h1, h⟩ := Res.bind_eq_ok.1 h
      obtain ⟨dr, h2, h⟩ := Res.bind_eq_ok.1 h
      obtain ⟨rest, h3, h⟩ := Res.bind_eq_ok.1 h
      cases h
      rw [segment3_zero hz h1, segment3_zero hz h2, corrQuat_zero _ (hu f (by simp)), vec_add_zero,
        ih _ _ (fun e he => hu e (List.mem_cons_of_mem _ he)) (fun e he => hb e (List.mem_cons_of_mem _ he)) h3]

/-- A zero correction is no correction: unit attitudes, newest frame at the first queued state. -/
theorem correct_zero (dx : DMat ℝ) (hz : ∀ i, dx.e i 0 = 0) (s s' : PropQueue ℝ T) (m m' : FrameMgr ℝ T) (i0 : PropItem ℝ T) (rest : List (PropItem ℝ T)) (b : Frame ℝ T)
    (hi : s.items = i0 :: rest) (hu : UnitAtt s m) (hl : m.frames.getLast? = some b) (hb : ∀ f ∈ m.frames, f.id = b.id → f.p = i0.st.p ∧ f.v = i0.st.v ∧ f.q = i0.st.q)
    (h : correct dx s m = .ok (s', m')) : s' = s ∧ m' = m := by
  obtain ⟨u1, u2, u3⟩ := hu
  rw [hi] at u1
  unfold correct at h
  rw [hi] at h
  dsimp only at h
  obtain ⟨dp, h1, h⟩ := Res.bind_eq_ok.1 h
  obtain ⟨dv, h2, h⟩ := Res.bind_eq_ok.1 h
  obtain ⟨dr, h3, h⟩ := Res.bind_eq_ok.1 h
  obtain ⟨dba, h4, h⟩ := Res.bind_eq_ok.1 h
  obtain ⟨dbg, h5, h⟩ := Res.bind_eq_ok.1 h
  obtain ⟨ex, h6, h⟩ := Res.bind_eq_ok.1 h
  rw [show back m.frames = .ok b by unfold back; rw [hl], Res.bind_ok] at h
  obtain ⟨fs, h8, h⟩ := Res.bind_eq_ok.1 h
  rw [segment3_zero hz h1, segment3_zero hz h2, segment3_zero hz h3, corrQuat_zero _ (u1 i0 (by simp))] at h8 h
  rw [segment3_zero hz h4, segment3_zero hz h5] at h
  simp only [vec_add_zero] at h8 h
  rw [corrExt_zero dx hz _ _ _ u2 h6, corrFrames_zero dx hz _ _ _ _ _ _ u3 hb h8] at h
  simp only [Res.ok.injEq, Prod.mk.injEq] at h
  obtain ⟨rfl, rfl⟩ := h
  refine ⟨?_, rfl⟩
  cases s
  simp only at hi
  subst hi
  rfl

/-- A chain is determined by its first state and its samples. -/
theorem chained_det (g ba bg : Vec3 ℝ) (l : List (PropItem ℝ T)) : ∀ (l' : List (PropItem ℝ T)) (i i' : PropItem ℝ T), Reckon.Chained g ba bg (i :: l) → Reckon.Chained g ba bg (i' :: l') →
    i'.st = i.st → (i' :: l').map sample = (i :: l).map sample → l'.map (·.st) = l.map (·.st) := by
  induction l with
  | nil =>
    intro l' i i' _ _ _ h
    have := congrArg List.length h
    simp at this
    subst this
    rfl
  | cons a l ih =>
    intro l' i i' h h' hst hs
    cases l' with
    | nil => simp at hs
    | cons a' l' =>
      rw [List.map_cons, List.map_cons, List.map_cons, List.map_cons, List.cons.injEq, List.cons.injEq] at hs
      have ha : a'.st = a.st := by rw [h.1, h'.1, hst, hs.1, hs.2.1]
      rw [List.map_cons, List.map_cons, ha, ih l' a a' h.2 h'.2 ha (by rw [List.map_cons, List.map_cons, hs.2.1, hs.2.2])]

/-- The tail of the update keeps biases, window and samples, and the states of a chain. -/
theorem finish_keep (env : Env ℝ) (g : Vec3 ℝ) (u u' : Upd ℝ T) (good : Bool) (h : finish env g u = .ok (good, u')) (hq : Reckon.Ok g u.q) :
    good = true ∧ u'.w = u.w ∧ u'.policy = u.policy ∧ u'.q.biasA = u.q.biasA ∧ u'.q.biasG = u.q.biasG ∧ u'.q.items.map sample = u.q.items.map sample ∧
      u'.q.items.map (·.st) = u.q.items.map (·.st) := by
  have hok := Reckon.finish_ok env g u u' good h
  unfold finish at h
  obtain ⟨c1, h1, h⟩ := Res.bind_eq_ok.1 h
  obtain ⟨c2, h2, h⟩ := Res.bind_eq_ok.1 h
  obtain ⟨s, h3, h⟩ := Res.bind_eq_ok.1 h
  simp only [Res.ok.injEq, Prod.mk.injEq] at h
  obtain ⟨rfl, rfl⟩ := h
  dsimp only at hok ⊢
  have hs : s.biasA = u.q.biasA ∧ s.biasG = u.q.biasG ∧ s.items.map (·.st) = u.q.items.map (·.st) := by
    unfold storeCov at h3
    split at h3
    · cases h3
    · rename_i i0 rest hi
      obtain ⟨_, _, h3⟩ := Res.bind_eq_ok.1 h3
      obtain ⟨_, _, h3⟩ := Res.bind_eq_ok.1 h3
      obtain ⟨_, _, h3⟩ := Res.bind_eq_ok.1 h3
      cases h3
      exact ⟨rfl, rfl, by rw [hi]; rfl⟩
  have hsm := storeCov_sample _ _ _ h3
  have hr := (C36_samples_kept s g).1
  have hb : (s.repropagate g).biasA = s.biasA ∧ (s.repropagate g).biasG = s.biasG := by
    unfold PropQueue.repropagate
    split
    · exact ⟨rfl, rfl⟩
    · rename_i i0 rest _
      exact (Reckon.repropLoop_ok g rest s i0).2
  refine ⟨rfl, rfl, rfl, hb.1.trans hs.1, hb.2.trans hs.2.1, hr.trans hsm, ?_⟩
  have hhead := (C36_samples_kept s g).2.1
  unfold Reckon.Ok at hok hq
  rw [hb.1, hb.2, hs.1, hs.2.1] at hok
  have hsm' : (s.repropagate g).items.map sample = u.q.items.map sample := hr.trans hsm
  have hst := hs.2.2
  generalize (s.repropagate g).items = l' at hok hhead hsm'
  cases hu : u.q.items with
  | nil => rw [hu] at hsm'; simp at hsm'; subst hsm'; rfl
  | cons i l =>
    rw [hu] at hq hsm' hst
    cases l' with
    | nil => simp at hsm'
    | cons i' l' =>
      have hi : i'.st = i.st := by
        cases hsi : s.items with
        | nil => rw [hsi] at hst; simp at hst
        | cons x xs =>
          rw [hsi] at hst hhead
          simp only [List.head?_cons, Option.some.injEq] at hhead
          rw [List.map_cons, List.map_cons, List.cons.injEq] at hst
          rw [hhead, hst.1]
      rw [List.map_cons, List.map_cons, hi, chained_det _ _ _ _ _ _ _ hq hok hi hsm']

theorem setBack_ids (fs : List (Frame K T)) (st : Motion K) : (setBack fs st).map (·.id) = fs.map (·.id) := by
  rcases List.eq_nil_or_concat fs with rfl | ⟨l, z, rfl⟩
  · rfl
  · simp [setBack]

theorem setBack_last (fs : List (Frame K T)) (st : Motion K) (f : Frame K T) (h : fs.getLast? = some f) :
    (setBack fs st).getLast? = some { f with p := st.p, v := st.v, q := st.q } := by
  simp [setBack, h]

theorem WinOk.setBack {m : FrameMgr K T} {b : Nat} (h : WinOk m b) (st : Motion K) : WinOk { m with frames := setBack m.frames st } b := by
  have hl : (Update.setBack m.frames st).length = m.frames.length := by
    have := congrArg List.length (setBack_ids m.frames st); simpa using this
  refine ⟨?_, ?_, ?_⟩
  · show (Update.setBack m.frames st).map (·.id) = _
    rw [setBack_ids, h.ids, hl]
  · show _ + (Update.setBack m.frames st).length ≤ _
    rw [hl]; exact h.lt
  · intro hc
    have : (Update.setBack m.frames st).length = 0 := by rw [show Update.setBack m.frames st = [] from hc]; rfl
    rw [hl] at this
    exact h.ne (List.length_eq_zero_iff.1 this)

/-- C91.  A measurement that agrees exactly with the estimate leaves the estimate where it is.  For every window with consecutive frame ids whose attitudes, the newest apart, are unit, every queue that is dead
reckoning along its samples, every random stream, every result of the rank-revealing decompositions and of the linear solver, and every singular value decomposition that meets its
specification: if each feature linked to the newest frame has a position from which all its observations follow exactly, at the poses of the window with the newest one set to the state
the update aligns to, then a finished update changes neither biases, extrinsics, nor any other pose of the window, and the queue holds the same states and samples as after aligning.  No
rank, observability or conditioning is assumed: a degenerate feature whose triangulation returns another point still has zero residuals. -/
theorem C91_exact_is_kept (env : Env ℝ) (noise : ℝ) (maxUsed : Nat) (g : Vec3 ℝ) (u u' : Upd ℝ T) (ts thr : T) (good : Bool) (b : Nat) (i0 : PropItem ℝ T) (rest : List (PropItem ℝ T))
    (f : Frame ℝ T) (hsvd : ∀ a, IsLastSingular a (env.ext.svdLast a)) (hw : WinOk u.w.frm b) (hi : (u.q.resetOrigin ts thr).1.items = i0 :: rest) (hq : Reckon.Ok g u.q)
    (hu0 : i0.st.q.sqNorm = 1) (huf : ∀ f ∈ u.w.frm.frames.dropLast, f.q.sqNorm = 1) (hue : ∀ e ∈ u.w.frm.extrinsics, e.q.sqNorm = 1)
    (hl : u.w.frm.frames.getLast? = some f) (hnd : (f.features.map (·.2)).Nodup)
    (hX : ∀ e ∈ f.features, ∃ X, SeesExactly { u.w.frm with frames := setBack u.w.frm.frames i0.st } (u.w.feat.heap e.2) X)
    (h : update env noise maxUsed g u ts thr = .ok (good, u')) :
    u'.q.biasA = u.q.biasA ∧ u'.q.biasG = u.q.biasG ∧ u'.w.frm.extrinsics = u.w.frm.extrinsics ∧
    u'.q.items.map sample = (i0 :: rest).map sample ∧ u'.q.items.map (·.st) = (i0 :: rest).map (·.st) ∧
    (good = true → u'.w.frm = { u.w.frm with frames := setBack u.w.frm.frames i0.st }) := by
  have hr : Reckon.Ok g (u.q.resetOrigin ts thr).1 ∧ (u.q.resetOrigin ts thr).1.biasA = u.q.biasA ∧ (u.q.resetOrigin ts thr).1.biasG = u.q.biasG := by
    unfold PropQueue.resetOrigin
    split
    · exact ⟨hq, rfl, rfl⟩
    · obtain ⟨old, ho, -⟩ := resetLoop_spec ts thr u.q.items
      exact ⟨Reckon.chained_suffix _ _ _ _ _ ⟨old, ho.symm⟩ hq, rfl, rfl⟩
  unfold update at h
  generalize u.q.resetOrigin ts thr = q at h hr hi
  obtain ⟨s, found⟩ := q
  dsimp only at h hr hi
  obtain ⟨hr, hba, hbg⟩ := hr
  split at h
  · cases h; exact ⟨hba, hbg, rfl, by rw [hi], by rw [hi], by simp⟩
  obtain ⟨policy, hp, h⟩ := Res.bind_eq_ok.1 h
  obtain ⟨⟨good1, c⟩, hc, h⟩ := Res.bind_eq_ok.1 h
  dsimp only at h
  split at h
  · cases h; exact ⟨hba, hbg, rfl, by rw [hi], by rw [hi], by simp⟩
  have hne : u.w.frm.frames ≠ [] := hw.ne
  rw [show updateNewest s u.w.frm = .ok (true, { u.w.frm with frames := setBack u.w.frm.frames i0.st }) by
    unfold updateNewest
    rw [if_neg (by simpa using hne), hi]
    rfl, Res.bind_ok] at h
  dsimp only at h
  simp only [Bool.not_true, Bool.false_eq_true, if_false] at h
  obtain ⟨w1, hw1⟩ : ∃ w1 : Win ℝ T, w1 = { u.w with frm := { u.w.frm with frames := setBack u.w.frm.frames i0.st } } := ⟨_, rfl⟩
  rw [← hw1] at h
  have hok1 : WinOk w1.frm b := by rw [hw1]; exact hw.setBack i0.st
  have hl1 : w1.frm.frames.getLast? = some { f with p := i0.st.p, v := i0.st.v, q := i0.st.q } := by rw [hw1]; exact setBack_last _ _ _ hl
  have hu1 : (∀ f ∈ w1.frm.frames, f.q.sqNorm = 1) ∧ ∀ e ∈ w1.frm.extrinsics, e.q.sqNorm = 1 := by
    rw [hw1]
    refine ⟨?_, hue⟩
    intro x hx
    dsimp only at hx
    simp only [setBack, hl, List.mem_append, List.mem_singleton] at hx
    rcases hx with hx | rfl
    · exact huf x hx
    · exact hu0
  obtain ⟨⟨w2, sel, pos⟩, hs, h⟩ := Res.bind_eq_ok.1 h
  dsimp only at h hs
  obtain ⟨sel1, -, -, -, hsb⟩ := C50_selection env maxUsed w1 w2 u.pos pos sel _ hl1 hnd hs
  have hcons : ∀ r ∈ sel, Consistent w2.frm (w2.feat.heap r) := by
    intro r hrs
    obtain ⟨⟨id, hid⟩, -, htr⟩ := sel1 r hrs
    obtain ⟨X, hXr⟩ := hX _ hid
    rw [hsb.frm]
    refine Triangulated.consistent env.ext w1 r b _ X hsvd hok1 hu1 (by rw [hw1]; exact hXr) htr _ ?_ ?_ rfl
    · rw [hsb.heap r]
    · rw [hsb.heap r]
  have hfrm : w2.frm = { u.w.frm with frames := setBack u.w.frm.frames i0.st } := by rw [hsb.frm, hw1]
  split at h
  · obtain ⟨f1, f2, f3, f4, f5, f6, f7⟩ := finish_keep _ _ _ _ _ h hr
    dsimp only at f2 f3 f4 f5 f6 f7
    exact ⟨f4.trans hba, f5.trans hbg, by rw [f2, hfrm], by rw [f6, hi], by rw [f7, hi], fun _ => by rw [f2, hfrm]⟩
  · obtain ⟨hx, hm, h⟩ := Res.bind_eq_ok.1 h
    split at h
    · cases h
      exact ⟨hba, hbg, by dsimp only; rw [hfrm], by rw [hi], by rw [hi], by simp⟩
    · rename_i hxr
      obtain ⟨u1, hus, h⟩ := Res.bind_eq_ok.1 h
      unfold updateState at hus
      obtain ⟨k, hk, hus⟩ := Res.bind_eq_ok.1 hus
      obtain ⟨⟨s3, m3⟩, hcor, hus⟩ := Res.bind_eq_ok.1 hus
      dsimp only at hus hcor hk
      cases hus
      have hz := kalman_zero _ _ _ _ _ (measure_lastZero env w2 b (by rw [hsb.frm]; exact hok1) sel hcons hxr hm) hk
      obtain ⟨e1, e2⟩ := correct_zero k.dx hz s s3 w2.frm m3 i0 rest { f with p := i0.st.p, v := i0.st.v, q := i0.st.q } hi
        ⟨by rw [hi]; simpa using hu0, by rw [hsb.frm]; exact hu1.2, by rw [hsb.frm]; exact hu1.1⟩ (by rw [hsb.frm]; exact hl1) (by
          rw [hsb.frm]
          intro x hx hid
          have hnd1 : (w1.frm.frames.map (·.id)).Nodup := by rw [hok1.ids]; exact List.nodup_range'
          have hmem := List.mem_of_getLast? hl1
          rw [List.inj_on_of_nodup_map hnd1 hx hmem hid]
          exact ⟨rfl, rfl, rfl⟩) hcor
      subst e1 e2
      obtain ⟨f1, f2, f3, f4, f5, f6, f7⟩ := finish_keep _ _ _ _ _ h hr
      dsimp only at f2 f3 f4 f5 f6 f7
      exact ⟨f4.trans hba, f5.trans hbg, by rw [f2, hfrm], by rw [f6, hi], by rw [f7, hi], fun _ => by rw [f2]; exact hfrm⟩

end Update
end Vio
