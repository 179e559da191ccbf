/-
C102: the measurement of the update says nothing about where the world is, how it is turned and, if the mounting positions of the cameras stretch with it, how large it is.
-/
import Verif.Spec.Gauge
import Verif.Lemmas.Stack
import Verif.Props.Exact
import Verif.Props.UpdateJac

set_option linter.unusedSectionVars false

namespace Vio
open Spec Matrix WinSpec

theorem Quat.rotate_cross (q : Quat ℝ) (h : q.sqNorm = 1) (a b : Vec3 ℝ) : q.rotate (a.cross b) = (q.rotate a).cross (q.rotate b) := by
  simp only [sqNorm] at h
  apply Vec3.ext <;>
    simp only [rotate, vec, Vec3.cross, Vec3.add_x, Vec3.add_y, Vec3.add_z, Vec3.smul_x, Vec3.smul_y, Vec3.smul_z]
  · linear_combination (-4 * q.x * (q.x * (a.y * b.z - a.z * b.y) + q.y * (a.z * b.x - a.x * b.z) + q.z * (a.x * b.y - a.y * b.x))) * h
  · linear_combination (-4 * q.y * (q.x * (a.y * b.z - a.z * b.y) + q.y * (a.z * b.x - a.x * b.z) + q.z * (a.x * b.y - a.y * b.x))) * h
  · linear_combination (-4 * q.z * (q.x * (a.y * b.z - a.z * b.y) + q.y * (a.z * b.x - a.x * b.z) + q.z * (a.x * b.y - a.y * b.x))) * h

namespace Update

variable {T : Type} [TimeOps T] [TimeCast T ℝ]

/-- C102, the observation itself.  Turning, stretching and shifting the world together with all frames and points, and stretching the mounting positions of the cameras, changes no
predicted observation. -/
theorem C102_predict (r fq eq : Quat ℝ) (s : ℝ) (t fp ep pw : Vec3 ℝ) (hr : r.sqNorm = 1) (hf : fq.sqNorm = 1) (hs : s ≠ 0) :
    predict (r.mul fq) (placed r s t fp) eq (.smul s ep) (placed r s t pw) = predict fq fp eq ep pw := by
  have e : (r.mul fq).inverse.rotate (placed r s t pw - placed r s t fp) = .smul s (fq.inverse.rotate (pw - fp)) := by
    have e1 : placed r s t pw - placed r s t fp = .smul s (r.rotate (pw - fp)) := by
      unfold placed
      rw [Quat.rotate_sub]
      apply Vec3.ext <;> simp <;> ring
    rw [e1, Quat.rotate_smul, Quat.inverse_mul _ _ hr hf, Quat.rotate_mul _ _ (Quat.sqNorm_inverse_of_unit _ hf) (Quat.sqNorm_inverse_of_unit _ hr),
      ← Quat.rotate_mul r.inverse r (Quat.sqNorm_inverse_of_unit _ hr) hr, Quat.inverse_mul_of_unit _ hr, Quat.rotate_one]
  have e2 : eq.inverse.rotate (.smul s (fq.inverse.rotate (pw - fp)) - .smul s ep) = .smul s (eq.inverse.rotate (fq.inverse.rotate (pw - fp) - ep)) := by
    rw [← Quat.rotate_smul eq.inverse]
    congr 1
    apply Vec3.ext <;> simp <;> ring
  simp only [predict, e, e2]
  apply Vec2.ext <;> simp only [Vec3.smul_x, Vec3.smul_y, Vec3.smul_z] <;> rw [mul_div_mul_left _ _ hs]

/-- The Jacobian blocks of one observation cancel along a move of the world. -/
theorem blocks_blind (f : Frame ℝ T) (e : Extrinsic ℝ) (pw t ω : Vec3 ℝ) (σ : ℝ) (hf : ω = 0 ∨ f.q.sqNorm = 1) (hz : (camPoint f e pw).z ≠ 0) :
    (jacPw f e pw).mulVec (moved t ω σ pw) + (jacPwb f e pw).mulVec (moved t ω σ f.p) + (jacRwb f e pw).mulVec (f.q.inverse.rotate ω) + (jacPbc f e pw).mulVec (.smul σ e.p) = ⟨0, 0⟩ := by
  have lin : ∀ a b : Vec3 ℝ, (projJac (camPoint f e pw)).mulVec a + (projJac (camPoint f e pw)).mulVec b = (projJac (camPoint f e pw)).mulVec (a + b) := by
    intro a b
    apply Vec2.ext <;> simp [Mat23.mulVec, Vec3.dot] <;> ring
  simp only [jacPw, jacPwb, jacRwb, jacPbc, mulMat_mulVec, mul_mulVec, neg_mulVec, skew_mulVec, lin]
  have e0 : bodyPoint f pw = f.q.inverse.rotate (pw - f.p) := by simp only [bodyPoint, Quat.toMat_mulVec]
  have e1 : e.q.inverse.toMat.mulVec (f.q.inverse.toMat.mulVec (moved t ω σ pw)) + -e.q.inverse.toMat.mulVec (f.q.inverse.toMat.mulVec (moved t ω σ f.p)) +
      e.q.inverse.toMat.mulVec ((bodyPoint f pw).cross (f.q.inverse.rotate ω)) + -e.q.inverse.toMat.mulVec (.smul σ e.p) = .smul σ (camPoint f e pw) := by
    rw [camPoint_eq, e0]
    simp only [Quat.toMat_mulVec]
    have h1 : f.q.inverse.rotate (moved t ω σ pw) - f.q.inverse.rotate (moved t ω σ f.p) =
        (f.q.inverse.rotate ω).cross (f.q.inverse.rotate (pw - f.p)) + .smul σ (f.q.inverse.rotate (pw - f.p)) := by
      have hc : (f.q.inverse.rotate ω).cross (f.q.inverse.rotate (pw - f.p)) = f.q.inverse.rotate (ω.cross (pw - f.p)) := by
        rcases hf with rfl | hf
        · apply Vec3.ext <;> simp [Quat.rotate]
        · rw [Quat.rotate_cross _ (Quat.sqNorm_inverse_of_unit _ hf)]
      rw [hc, ← Quat.rotate_smul, ← Quat.rotate_sub, ← Quat.rotate_add]
      congr 1
      apply Vec3.ext <;> simp [moved] <;> ring
    have h2 : ∀ a b c d : Vec3 ℝ, e.q.inverse.rotate a + -e.q.inverse.rotate b + e.q.inverse.rotate c + -e.q.inverse.rotate d = e.q.inverse.rotate ((a - b) + c - d) := by
      intro a b c d
      rw [Quat.rotate_sub, Quat.rotate_add, Quat.rotate_sub]
      apply Vec3.ext <;> simp <;> ring
    rw [h2, h1, ← Quat.rotate_smul e.q.inverse]
    congr 1
    apply Vec3.ext <;> simp <;> ring
  rw [e1]
  generalize camPoint f e pw = c at *
  apply Vec2.ext <;> simp [Mat23.mulVec, Vec3.dot, projJac] <;> field_simp <;> ring

/-- Landmark entries in front of the error state. -/
def withPoint (d : Vec3 ℝ) (x : Nat → ℝ) (y : Nat) : ℝ := if y < 3 then d.get y else x (y - 3)

theorem triple_withPoint (d : Vec3 ℝ) (x : Nat → ℝ) (i : Nat) : triple (withPoint d x) (3 + i) = triple x i := by
  simp only [triple, withPoint]
  rw [if_neg (by omega), if_neg (by omega), if_neg (by omega)]
  simp only [Nat.add_sub_cancel_left, Nat.add_assoc]

theorem triple_point (d : Vec3 ℝ) (x : Nat → ℝ) : triple (withPoint d x) 0 = d := by
  apply Vec3.ext <;> simp [triple, withPoint, Vec3.get]

/-- C102, one observation: its two rows do not see a move of the world.  A turn of the world needs unit quaternions, the rest does not. -/
theorem C102_observation (m : FrameMgr ℝ T) (f : Frame ℝ T) (b k c : Nat) (pw : Vec3 ℝ) (n : Vec2 ℝ) (a : DMat ℝ) (row : Nat) (t ω : Vec3 ℝ) (σ : ℝ) (x : Nat → ℝ) (hw : WinOk m b)
    (hfu : ω = 0 ∨ f.q.sqNorm = 1) (hk : m.frames[k]? = some f) (hid : f.id = b + k) (hx : MovesWorld m t ω σ x)
    (h : ObsRows m f b (b + (m.frames.length - 1)) pw c n a row) (i : Nat) (hi : i < 2) :
    ∑ y ∈ Finset.range (hxCols m + 3), a.e (row + i) y * withPoint (moved t ω σ pw) x y = 0 := by
  obtain ⟨B, hB, hrow⟩ := h
  have hkl : k < m.frames.length := by
    by_contra hc
    rw [List.getElem?_eq_none (by omega)] at hk
    cases hk
  simp only [hrow i hi]
  rw [hid] at hB
  have he : ∃ e, m.extrinsics[c]? = some e := by
    unfold measNorm at hB
    obtain ⟨e, he, -⟩ := Res.bind_eq_ok.1 hB
    unfold idx at he
    split at he
    · exact ⟨_, by assumption⟩
    · cases he
  obtain ⟨e, he⟩ := he
  by_cases hz : 1 / 10000000000 < |(camPoint f e pw).z|
  · obtain ⟨a', h1, -, -, -, -, h5⟩ := measNorm_spec m f e pw n b k c 0 (.zero 2 (hxCols m + 4)) hw.lt hkl he rfl (by simp) (fun _ _ _ => rfl) hz
    obtain rfl : a' = B := by rw [hB] at h1; cases h1; rfl
    have hz0 : (camPoint f e pw).z ≠ 0 := by
      intro h0
      rw [h0, abs_zero] at hz
      norm_num at hz
    have hbl := blocks_blind f e pw t ω σ hfu hz0
    have key := h5 i hi (withPoint (moved t ω σ pw) x)
    rw [Nat.zero_add] at key
    rw [key]
    have p0 := triple_point (moved t ω σ pw) x
    have p1 : triple (withPoint (moved t ω σ pw) x) (if k = m.frames.length - 1 then 3 else 18 + m.extrinsics.length * 6 + k * 6) = moved t ω σ f.p := by
      rw [← hx.pos k f hk, ← triple_withPoint (moved t ω σ pw) x]
      congr 1
      unfold posAt
      split <;> split <;> omega
    have p2 : triple (withPoint (moved t ω σ pw) x) (if k = m.frames.length - 1 then 9 else 18 + m.extrinsics.length * 6 + k * 6 + 3) = f.q.inverse.rotate ω := by
      rw [← hx.rot k f hk, ← triple_withPoint (moved t ω σ pw) x]
      congr 1
      unfold rotAt
      split <;> split <;> omega
    have p3 : triple (withPoint (moved t ω σ pw) x) (18 + c * 6) = .smul σ e.p := by
      rw [← hx.mount c e he, ← triple_withPoint (moved t ω σ pw) x]
      congr 1
      omega
    have p4 : triple (withPoint (moved t ω σ pw) x) (18 + c * 6 + 3) = 0 := by
      rw [← hx.mountRot c e he, ← triple_withPoint (moved t ω σ pw) x]
      congr 1
      omega
    unfold triple at p0 p1 p2 p3 p4
    simp only [Nat.zero_add] at p0
    dsimp only
    rw [p0, p1, p2, p3, p4]
    rcases (show i = 0 ∨ i = 1 by omega) with rfl | rfl
    · have := congrArg Vec2.x hbl
      simp only [Mat23.mulVec, Vec2.add_x] at this
      simp only [if_true]
      rw [this]
      simp [Vec3.dot]
    · have := congrArg Vec2.y hbl
      simp only [Mat23.mulVec, Vec2.add_y] at this
      simp only [if_neg (show ¬ (1 : Nat) = 0 by omega)]
      rw [this]
      simp [Vec3.dot]
  · unfold measNorm at hB
    have : idx m.extrinsics c = .ok e := by unfold idx; rw [he]
    rw [this, Res.bind_ok, if_neg (by simpa [zeroTol, lit] using hz)] at hB
    cases hB
    apply Finset.sum_eq_zero
    intro y _
    simp [DMat.zero]

theorem obs_at (os : List (Obs ℝ)) : ∀ z, z < totalObs os → ∃ j o k, os[j]? = some o ∧ k < o.norms.length ∧ z = totalObs (os.take j) + k := by
  induction os with
  | nil => intro z hz; simp [totalObs] at hz
  | cons o os ih =>
    intro z hz
    have htot : totalObs (o :: os) = o.norms.length + totalObs os := by simp [totalObs]
    by_cases h : z < o.norms.length
    · exact ⟨0, o, z, rfl, h, by simp [totalObs]⟩
    · obtain ⟨j, o', k, h1, h2, h3⟩ := ih (z - o.norms.length) (by omega)
      refine ⟨j + 1, o', k, by simpa using h1, h2, ?_⟩
      have : totalObs ((o :: os).take (j + 1)) = o.norms.length + totalObs (os.take j) := by simp [totalObs]
      omega

theorem frame_index (m : FrameMgr ℝ T) (b : Nat) (hw : WinOk m b) (f : Frame ℝ T) (hf : f ∈ m.frames) : ∃ k, m.frames[k]? = some f ∧ f.id = b + k := by
  obtain ⟨k, hk, rfl⟩ := List.getElem_of_mem hf
  refine ⟨k, List.getElem?_eq_getElem hk, ?_⟩
  have := congrArg (fun l => l[k]?) hw.ids
  simp only [List.getElem?_map, List.getElem?_eq_getElem hk, Option.map_some] at this
  rw [List.getElem?_range' hk] at this
  simpa using this

/-- C102, one feature: after the projection that removes the landmark, no row sees a move of the world. -/
theorem C102_feature (ext : Ext ℝ) (hext : GoodExt ext) (w : Win ℝ T) (b r : Nat) (hw : WinOk w.frm b) (hok : FeatOk w.frm (w.feat.heap r))
    (t ω : Vec3 ℝ) (σ : ℝ) (x : Nat → ℝ) (hu : ω = 0 ∨ ∀ f ∈ w.frm.frames, f.q.sqNorm = 1) (hx : MovesWorld w.frm t ω σ x) :
    ∃ p, measFeature ext w.frm (w.feat.heap r) = .ok (some p) ∧ p.cols = hxCols w.frm + 1 ∧
      ∀ i < p.rows, ∑ y ∈ Finset.range (hxCols w.frm), p.e i y * x y = 0 := by
  obtain ⟨e1, e2, a, p, g, l, h1, h2, h3, h4, h5, h6, hg, hl, h7⟩ := C51_feature ext w.frm (w.feat.heap r) b hw hok
  have h2o := hok.two
  have hnum := hok.num
  generalize w.feat.heap r = ft at *
  refine ⟨p, h1, h4, ?_⟩
  have hgid : g.id = b := by
    have := congrArg List.head? hw.ids
    rw [List.head?_map, hg, List.head?_range'] at this
    have hne : w.frm.frames.length ≠ 0 := by simpa using hw.ne
    simpa [hne] using this
  have hlid : l.id = b + (w.frm.frames.length - 1) := by
    have := congrArg List.getLast? hw.ids
    rw [List.getLast?_map, hl, List.getLast?_range'] at this
    have hne : w.frm.frames.length ≠ 0 := by simpa using hw.ne
    simp [hne] at this
    omega
  obtain ⟨q, hq⟩ : ∃ q, a.rows = q + 3 := ⟨a.rows - 3, by omega⟩
  -- every row of the matrix before the projection
  have hrows : ∀ i < a.rows, ∑ y ∈ Finset.range (hxCols w.frm + 3), a.e i y * withPoint (moved t ω σ ft.pw) x y = 0 := by
    intro i hi
    obtain ⟨j, o, k, o1, o2, o3⟩ := obs_at ft.observes (i / 2) (by omega)
    obtain ⟨f, f1, f2⟩ := h7 j o o1
    obtain ⟨hfm, -⟩ := ((C13_getFrame w.frm b hw.ids _).1 f).1 f1
    obtain ⟨kf, k1, k2⟩ := frame_index w.frm b hw f hfm
    obtain ⟨⟨c, n⟩, hget⟩ : ∃ z, o.norms[k]? = some z := ⟨_, List.getElem?_eq_getElem o2⟩
    have hrow := f2 k c n hget
    rw [hgid, hlid] at hrow
    have := C102_observation w.frm f b kf c ft.pw n a _ t ω σ x hw (hu.imp_right (fun h => h f hfm)) k1 k2 hx hrow (i % 2) (by omega)
    rw [← o3] at this
    rwa [show 2 * (i / 2) + i % 2 = i by omega] at this
  obtain ⟨p', N, q1, q2, q3, q4, q5, q6⟩ := C46_projection ext a q (hxCols w.frm + 1) hq (by omega) (fun h _ => hext.qr h)
  obtain rfl : p' = p := by rw [q1] at h2; cases h2; rfl
  intro i hi
  rw [q2] at hi
  have hp : ∀ y, y < hxCols w.frm → p'.e i y = ∑ z : Fin (q + 3), N ⟨i, hi⟩ z * a.e z (3 + y) := by
    intro y hy
    have := congrFun (congrFun q6 ⟨i, hi⟩) ⟨y, by omega⟩
    rw [Matrix.mul_apply] at this
    exact this
  rw [Finset.sum_congr rfl (fun y hy => by rw [hp y (Finset.mem_range.1 hy), Finset.sum_mul])]
  rw [Finset.sum_comm]
  have hin : ∀ z : Fin (q + 3), ∑ y ∈ Finset.range (hxCols w.frm), N ⟨i, hi⟩ z * a.e z (3 + y) * x y = -(∑ y ∈ Finset.range 3, N ⟨i, hi⟩ z * a.e z y * (moved t ω σ ft.pw).get y) := by
    intro z
    have := hrows z (by omega)
    rw [show hxCols w.frm + 3 = 3 + hxCols w.frm by omega, Finset.sum_range_add] at this
    have e1 : ∑ y ∈ Finset.range 3, a.e z y * withPoint (moved t ω σ ft.pw) x y = ∑ y ∈ Finset.range 3, a.e z y * (moved t ω σ ft.pw).get y :=
      Finset.sum_congr rfl (fun y hy => by rw [withPoint, if_pos (Finset.mem_range.1 hy)])
    have e2 : ∑ y ∈ Finset.range (hxCols w.frm), a.e z (3 + y) * withPoint (moved t ω σ ft.pw) x (3 + y) = ∑ y ∈ Finset.range (hxCols w.frm), a.e z (3 + y) * x y :=
      Finset.sum_congr rfl (fun y hy => by rw [withPoint, if_neg (by omega), Nat.add_sub_cancel_left])
    rw [e1, e2] at this
    simp only [mul_assoc, ← Finset.mul_sum]
    linear_combination N ⟨i, hi⟩ z * this
  rw [Finset.sum_congr rfl (fun z _ => hin z), Finset.sum_neg_distrib, Finset.sum_comm, neg_eq_zero]
  apply Finset.sum_eq_zero
  intro y hy
  rw [← Finset.sum_mul]
  have := congrFun (congrFun q5 ⟨i, hi⟩) ⟨y, Finset.mem_range.1 hy⟩
  rw [Matrix.mul_apply] at this
  rw [show ∑ z : Fin (q + 3), N ⟨i, hi⟩ z * a.e z y = 0 from this, zero_mul]

/-- C102, the whole measurement equation, stacked and compressed: no row sees a move of the world. -/
theorem C102_measure (env : Env ℝ) (hext : GoodExt env.ext) (w : Win ℝ T) (b : Nat) (hw : WinOk w.frm b) (fs : List Nat) (hok : ∀ r ∈ fs, FeatOk w.frm (w.feat.heap r))
    (hlt : startRow w fs fs.length < two32) (t ω : Vec3 ℝ) (σ : ℝ) (x : Nat → ℝ) (hu : ω = 0 ∨ ∀ f ∈ w.frm.frames, f.q.sqNorm = 1) (hx : MovesWorld w.frm t ω σ x) :
    ∃ hxr, measure env w fs = .ok (some hxr) ∧ hxr.cols = hxCols w.frm + 1 ∧ ∀ i < hxr.rows, ∑ y ∈ Finset.range (hxCols w.frm), hxr.e i y * x y = 0 := by
  obtain ⟨hxr, m1, m2, m3, -⟩ := measure_gram env hext w b hw fs hok hlt
  refine ⟨hxr, m1, m2, ?_⟩
  have hgram : ∀ i : Nat, i < hxCols w.frm → ∑ j ∈ Finset.range (hxCols w.frm), (fs.map (fun r => gramAt (featEq env.ext w r) i j)).sum * x j = 0 := by
    intro i hi
    have : ∀ l : List Nat, (∀ r ∈ l, r ∈ fs) → ∑ j ∈ Finset.range (hxCols w.frm), (l.map (fun r => gramAt (featEq env.ext w r) i j)).sum * x j = 0 := by
      intro l
      induction l with
      | nil => intro _; simp
      | cons r l ih =>
        intro hl
        simp only [List.map_cons, List.sum_cons, add_mul, Finset.sum_add_distrib]
        rw [ih (fun r' hr' => hl r' (List.mem_cons_of_mem _ hr')), add_zero]
        obtain ⟨p, p1, p2, p3⟩ := C102_feature env.ext hext w b r hw (hok r (hl r (by simp))) t ω σ x hu hx
        have hfe : featEq env.ext w r = p := by unfold featEq; rw [p1]
        rw [hfe]
        unfold gramAt
        simp only [Finset.sum_mul]
        rw [Finset.sum_comm]
        apply Finset.sum_eq_zero
        intro z hz
        have := p3 z (Finset.mem_range.1 hz)
        simp only [mul_assoc, ← Finset.mul_sum]
        rw [this, mul_zero]
    exact this fs (fun _ h => h)
  set H := hxr.toM hxr.rows (hxCols w.frm) with hH
  set v : Fin (hxCols w.frm) → ℝ := fun j => x j with hv
  have hz : (Hᵀ * H) *ᵥ v = 0 := by
    rw [m3]
    funext i
    have := hgram i i.2
    rw [Finset.sum_range] at this
    exact this
  have hz2 : H *ᵥ v = 0 := by
    have : (H *ᵥ v) ⬝ᵥ (H *ᵥ v) = 0 := by
      rw [Matrix.dotProduct_mulVec, ← Matrix.mulVec_transpose, Matrix.mulVec_mulVec, hz, zero_dotProduct]
    exact dotProduct_self_eq_zero.1 this
  intro i hi
  have := congrFun hz2 ⟨i, hi⟩
  rw [Finset.sum_range]
  exact this

/-- Two decompositions of the same matrix give the same inverse with cut-off. -/
theorem invEig_unique (ext : Ext ℝ) (hext : GoodExt ext) (S S' : DMat ℝ) (m : Nat) (h1 : S.rows = m) (h2 : S.cols = m) (h1' : S'.rows = m) (h2' : S'.cols = m)
    (hS : S'.toM m m = S.toM m m) (hsym : (S.toM m m)ᵀ = S.toM m m) : (invEig ext S').toM m m = (invEig ext S).toM m m := by
  have symm : ∀ A : DMat ℝ, A.rows = m → A.toM m m = S.toM m m → SymmTo A.rows A.e := by
    intro A hr hA i j hi hj
    rw [hr] at hi hj
    have : (A.toM m m)ᵀ = A.toM m m := by rw [hA, hsym]
    exact congrFun (congrFun this ⟨j, hj⟩) ⟨i, hi⟩
  obtain ⟨v1, v2, v3⟩ := IsEig.at (hext.eig S (by rw [h1, h2]) (symm S h1 rfl)) m h1
  obtain ⟨w1, w2, w3⟩ := IsEig.at (hext.eig S' (by rw [h1', h2']) (symm S' h1' hS)) m h1'
  have := gram_fun cutInv (S.toM m m) 0 (1 : Matrix (Fin m) (Fin m) ℝ) (1 : Matrix (Fin m) (Fin m) ℝ) _ _ _ _ v1 v2 w1 w2
    (by simpa using v3) (by simpa using hS.symm.trans w3) (1 : Matrix (Fin m) (Fin m) ℝ) 1 rfl rfl
  rw [invEig_toM ext S m h1, invEig_toM ext S' m h1']
  simpa using this.symm

/-- C102, the Kalman step: uncertainty `D` that the measurement does not see changes neither gain nor correction, and it is still there afterwards, entry by entry. -/
theorem C102_kalman (ext : Ext ℝ) (hext : GoodExt ext) (noise : ℝ) (P P' hxr : DMat ℝ) (n m : Nat) (h1 : P.rows = n) (h2 : P.cols = n) (h1' : P'.rows = n) (h2' : P'.cols = n)
    (h3 : hxr.rows = m) (h4 : hxr.cols = n + 1) (hP : (P.toM n n)ᵀ = P.toM n n) (D : Matrix (Fin n) (Fin n) ℝ) (hD : Dᵀ = D) (hPP : P'.toM n n = P.toM n n + D)
    (hH : hxr.toM m n * D = 0) :
    ∃ k k', kalman ext noise P hxr = .ok k ∧ kalman ext noise P' hxr = .ok k' ∧ k'.gain.toM n m = k.gain.toM n m ∧ k'.dx.toM n 1 = k.dx.toM n 1 ∧
      k'.cov.toM n n = k.cov.toM n n + D := by
  obtain ⟨k, S, hk, s1, s2, s3, s4, s5, s6, s7, s8, s9, s10⟩ := kalman_eq ext noise P hxr n m h1 h2 h3 h4
  obtain ⟨k', S', hk', t1, t2, t3, t4, t5, t6, t7, t8, t9, t10⟩ := kalman_eq ext noise P' hxr n m h1' h2' h3 h4
  have hD2 : D * (hxr.toM m n)ᵀ = 0 := by
    have := congrArg Matrix.transpose hH
    rwa [Matrix.transpose_mul, hD, Matrix.transpose_zero] at this
  have hSS : S'.toM m m = S.toM m m := by
    rw [s3, t3, hPP, Matrix.add_mul, hD2, add_zero]
  have hsym : (S.toM m m)ᵀ = S.toM m m := by
    rw [s3]
    simp only [Matrix.transpose_add, Matrix.transpose_mul, Matrix.transpose_transpose, Matrix.transpose_smul, Matrix.transpose_one, hP, Matrix.mul_assoc]
  have hg : k'.gain.toM n m = k.gain.toM n m := by
    rw [s4, t4, invEig_unique ext hext S S' m s1 s2 t1 t2 hSS hsym, hPP, Matrix.add_mul, hD2, add_zero]
  refine ⟨k, k', hk, hk', hg, by rw [s7, t7, hg], ?_⟩
  have hKD : (1 - k.gain.toM n m * hxr.toM m n) * D = D := by
    rw [Matrix.sub_mul, Matrix.one_mul, Matrix.mul_assoc, hH, Matrix.mul_zero, sub_zero]
  rw [s10, t10, hg, hPP, Matrix.mul_add, hKD, Matrix.transpose_add, hD]
  ext i j
  simp only [Matrix.smul_apply, Matrix.add_apply, smul_eq_mul]
  ring

/-- C102, measurement and Kalman step together: uncertainty that is made of moves of the world is neither used nor reduced. -/
theorem C102_solve (env : Env ℝ) (hext : GoodExt env.ext) (noise : ℝ) (P P' : DMat ℝ) (w : Win ℝ T) (b : Nat) (hw : WinOk w.frm b) (fs : List Nat)
    (hok : ∀ r ∈ fs, FeatOk w.frm (w.feat.heap r)) (hlt : startRow w fs fs.length < two32) (h1 : P.rows = hxCols w.frm) (h2 : P.cols = hxCols w.frm) (h3 : P'.rows = hxCols w.frm)
    (h4 : P'.cols = hxCols w.frm) (hP : SymmTo (hxCols w.frm) P.e) (D : Nat → Nat → ℝ) (hD : SymmTo (hxCols w.frm) D)
    (hPP : ∀ i j, i < hxCols w.frm → j < hxCols w.frm → P'.e i j = P.e i j + D i j)
    (hmove : ∀ j < hxCols w.frm, ∃ t ω σ, (ω = 0 ∨ ∀ f ∈ w.frm.frames, f.q.sqNorm = 1) ∧ MovesWorld w.frm t ω σ (fun i => D i j)) :
    ∃ hxr k k', measure env w fs = .ok (some hxr) ∧ kalman env.ext noise P hxr = .ok k ∧ kalman env.ext noise P' hxr = .ok k' ∧
      k.dx.rows = hxCols w.frm ∧ k'.dx.rows = hxCols w.frm ∧ k.dx.cols = 1 ∧ k'.dx.cols = 1 ∧ k.cov.rows = hxCols w.frm ∧ k'.cov.rows = hxCols w.frm ∧ k.cov.cols = hxCols w.frm ∧
      k'.cov.cols = hxCols w.frm ∧ (∀ i < hxCols w.frm, k'.dx.e i 0 = k.dx.e i 0) ∧
      ∀ i j, i < hxCols w.frm → j < hxCols w.frm → k'.cov.e i j = k.cov.e i j + D i j := by
  obtain ⟨hxr, m1, m2, -, -⟩ := measure_gram env hext w b hw fs hok hlt
  have hblind : ∀ j < hxCols w.frm, ∀ i < hxr.rows, ∑ y ∈ Finset.range (hxCols w.frm), hxr.e i y * D y j = 0 := by
    intro j hj
    obtain ⟨t, ω, σ, hu, hx⟩ := hmove j hj
    obtain ⟨hxr', n1, -, n3⟩ := C102_measure env hext w b hw fs hok hlt t ω σ _ hu hx
    obtain rfl : hxr' = hxr := by rw [m1] at n1; cases n1; rfl
    exact n3
  generalize hxCols w.frm = n at *
  obtain ⟨k, S, hk, -, -, -, -, s5, s6, -, s8, s9, -⟩ := kalman_eq env.ext noise P hxr n hxr.rows h1 h2 rfl m2
  obtain ⟨k', S', hk', -, -, -, -, t5, t6, -, t8, t9, -⟩ := kalman_eq env.ext noise P' hxr n hxr.rows h3 h4 rfl m2
  obtain ⟨l, l', e1, e2, -, e4, e5⟩ := C102_kalman env.ext hext noise P P' hxr n hxr.rows h1 h2 h3 h4 rfl m2
    (by ext i j; exact hP j i j.2 i.2) (Matrix.of fun (i j : Fin n) => D i j) (by ext i j; exact hD j i j.2 i.2) (by ext i j; exact hPP i j i.2 j.2)
    (by
      ext i j
      rw [Matrix.mul_apply]
      have := hblind j j.2 i i.2
      rw [Finset.sum_range] at this
      exact this)
  obtain rfl : l = k := by rw [hk] at e1; cases e1; rfl
  obtain rfl : l' = k' := by rw [hk'] at e2; cases e2; rfl
  refine ⟨hxr, l, l', m1, hk, hk', s5, t5, s6, t6, s8, t8, s9, t9, fun i hi => ?_, fun i j hi hj => ?_⟩
  · exact congrFun (congrFun e4 ⟨i, hi⟩) 0
  · exact congrFun (congrFun e5 ⟨i, hi⟩) ⟨j, hj⟩

/-! ### Moves exist -/

/-- The error state of a move of the world, with zero velocity and biases. -/
noncomputable def worldMove (m : FrameMgr ℝ T) (t ω : Vec3 ℝ) (σ : ℝ) (y : Nat) : ℝ :=
  if y < 15 then
    match m.frames.getLast? with
    | none => 0
    | some f => if y < 3 then (moved t ω σ f.p).get y else if 6 ≤ y ∧ y < 9 then (f.q.inverse.rotate ω).get (y - 6) else 0
  else if y < 15 + 6 * m.extrinsics.length then
    match m.extrinsics[(y - 15) / 6]? with
    | none => 0
    | some e => if (y - 15) % 6 < 3 then (Vec3.smul σ e.p).get ((y - 15) % 6) else 0
  else
    match m.frames[(y - 15 - 6 * m.extrinsics.length) / 6]? with
    | none => 0
    | some f => if (y - 15 - 6 * m.extrinsics.length) % 6 < 3 then (moved t ω σ f.p).get ((y - 15 - 6 * m.extrinsics.length) % 6)
        else (f.q.inverse.rotate ω).get ((y - 15 - 6 * m.extrinsics.length) % 6 - 3)

/-- Every window has a move of the world for every shift, turn and stretch. -/
theorem worldMove_moves (m : FrameMgr ℝ T) (t ω : Vec3 ℝ) (σ : ℝ) : MovesWorld m t ω σ (worldMove m t ω σ) := by
  have hlast : ∀ k f, m.frames[k]? = some f → k + 1 = m.frames.length → m.frames.getLast? = some f := by
    intro k f hk hl
    rw [List.getLast?_eq_getElem?, show m.frames.length - 1 = k by omega, hk]
  refine ⟨fun k f hk => ?_, fun k f hk => ?_, fun c e he => ?_, fun c e he => ?_⟩
  · unfold posAt
    split
    · rename_i h
      have := hlast k f hk h
      apply Vec3.ext <;> simp [triple, worldMove, this, Vec3.get]
    · have e0 : ∀ r, r < 3 → worldMove m t ω σ (15 + 6 * m.extrinsics.length + 6 * k + r) = (moved t ω σ f.p).get r := by
        intro r hr
        unfold worldMove
        rw [if_neg (by omega), if_neg (by omega), show (15 + 6 * m.extrinsics.length + 6 * k + r - 15 - 6 * m.extrinsics.length) / 6 = k by omega, hk]
        dsimp only
        rw [show (15 + 6 * m.extrinsics.length + 6 * k + r - 15 - 6 * m.extrinsics.length) % 6 = r by omega, if_pos hr]
      apply Vec3.ext
      · exact e0 0 (by omega)
      · exact e0 1 (by omega)
      · exact e0 2 (by omega)
  · unfold rotAt
    split
    · rename_i h
      have := hlast k f hk h
      apply Vec3.ext <;> simp [triple, worldMove, this, Vec3.get]
    · have e0 : ∀ r, r < 3 → worldMove m t ω σ (15 + 6 * m.extrinsics.length + 6 * k + 3 + r) = (f.q.inverse.rotate ω).get r := by
        intro r hr
        unfold worldMove
        rw [if_neg (by omega), if_neg (by omega), show (15 + 6 * m.extrinsics.length + 6 * k + 3 + r - 15 - 6 * m.extrinsics.length) / 6 = k by omega, hk]
        dsimp only
        rw [show (15 + 6 * m.extrinsics.length + 6 * k + 3 + r - 15 - 6 * m.extrinsics.length) % 6 = 3 + r by omega, if_neg (by omega), Nat.add_sub_cancel_left]
      apply Vec3.ext
      · exact e0 0 (by omega)
      · exact e0 1 (by omega)
      · exact e0 2 (by omega)
  all_goals
    have hc : c < m.extrinsics.length := by
      by_contra hc
      rw [List.getElem?_eq_none (by omega)] at he
      cases he
  · have e0 : ∀ r, r < 3 → worldMove m t ω σ (15 + 6 * c + r) = (Vec3.smul σ e.p).get r := by
      intro r hr
      unfold worldMove
      rw [if_neg (by omega), if_pos (by omega), show (15 + 6 * c + r - 15) / 6 = c by omega, he]
      dsimp only
      rw [show (15 + 6 * c + r - 15) % 6 = r by omega, if_pos hr]
    apply Vec3.ext
    · exact e0 0 (by omega)
    · exact e0 1 (by omega)
    · exact e0 2 (by omega)
  · have e0 : ∀ r, r < 3 → worldMove m t ω σ (15 + 6 * c + 3 + r) = 0 := by
      intro r hr
      unfold worldMove
      rw [if_neg (by omega), if_pos (by omega), show (15 + 6 * c + 3 + r - 15) / 6 = c by omega, he]
      dsimp only
      rw [if_neg (by omega)]
    apply Vec3.ext
    · exact e0 0 (by omega)
    · exact e0 1 (by omega)
    · exact e0 2 (by omega)

theorem moves_scale {m : FrameMgr ℝ T} {t ω : Vec3 ℝ} {σ : ℝ} {x : Nat → ℝ} (a : ℝ) (h : MovesWorld m t ω σ x) :
    MovesWorld m (.smul a t) (.smul a ω) (a * σ) (fun i => x i * a) := by
  have h3 : ∀ i, triple (fun i => x i * a) i = .smul a (triple x i) := by
    intro i
    apply Vec3.ext <;> simp [triple, Vec3.smul, mul_comm]
  refine ⟨fun k f hk => ?_, fun k f hk => ?_, fun c e he => ?_, fun c e he => ?_⟩
  · rw [h3, h.pos k f hk]
    apply Vec3.ext <;> simp [moved, Vec3.smul, Vec3.cross] <;> ring
  · rw [h3, h.rot k f hk, Quat.rotate_smul]
  · rw [h3, h.mount c e he]
    apply Vec3.ext <;> simp [Vec3.smul] <;> ring
  · rw [h3, h.mountRot c e he]
    apply Vec3.ext <;> simp [Vec3.smul]

/-! ### Example -/

/-- Two frames one unit apart, two cameras, one feature seen by both cameras in both frames. -/
noncomputable def gaugeWin : Win ℝ ℝ :=
  let o : Obs ℝ := ⟨[(0, ⟨0, 0⟩), (1, ⟨0, 0⟩)]⟩
  ⟨⟨fun r => ⟨r, 1, [o, o], 4, ⟨0, 0, 4⟩, .solved⟩, 1, [(0, 0)]⟩,
   ⟨[⟨0, [(0, 0)], .one, 0, 0, 1, 0⟩, ⟨1, [(0, 0)], .one, ⟨1, 0, 0⟩, 0, 2, 1⟩], 2, [⟨.one, 0⟩, ⟨.one, ⟨0, 1, 0⟩⟩], 4, 0, 0, 1⟩⟩

theorem gaugeWin_ok : WinOk gaugeWin.frm 1 := ⟨by simp [gaugeWin, List.range'], by simp [gaugeWin, two32], by simp [gaugeWin]⟩

theorem gaugeWin_feat : FeatOk gaugeWin.frm (gaugeWin.feat.heap 0) := by
  refine ⟨by simp [gaugeWin, totalObs], by simp [gaugeWin, totalObs], by simp [gaugeWin, totalObs, two32], fun j o ho => ?_⟩
  match j with
  | 0 =>
    obtain rfl : (⟨[(0, ⟨0, 0⟩), (1, ⟨0, 0⟩)]⟩ : Obs ℝ) = o := by simpa [gaugeWin] using ho
    exact ⟨by simp [gaugeWin, FrameMgr.getFrame, add32, two32], by simp [gaugeWin]⟩
  | 1 =>
    obtain rfl : (⟨[(0, ⟨0, 0⟩), (1, ⟨0, 0⟩)]⟩ : Obs ℝ) = o := by simpa [gaugeWin] using ho
    exact ⟨by simp [gaugeWin, FrameMgr.getFrame, add32, two32, List.find?], by simp [gaugeWin]⟩
  | j + 2 => simp [gaugeWin] at ho

/-- C102 with every solver that meets its contract: a joint shift, a turn and a stretch of this window, each with some variance, are neither used nor reduced. -/
example (e : Ext ℝ) (t ω : Vec3 ℝ) (σ : ℝ) : ∃ env : Env ℝ, ∃ hxr k k', measure env gaugeWin [0] = .ok (some hxr) ∧
    kalman env.ext 1 (⟨33, 33, fun i j => if i = j then 1 else 0⟩ : DMat ℝ) hxr = .ok k ∧
    kalman env.ext 1 ⟨33, 33, fun i j => (if i = j then 1 else 0) + worldMove gaugeWin.frm t ω σ i * worldMove gaugeWin.frm t ω σ j⟩ hxr = .ok k' ∧
    (∀ i < 33, k'.dx.e i 0 = k.dx.e i 0) ∧ ∀ i j, i < 33 → j < 33 → k'.cov.e i j = k.cov.e i j + worldMove gaugeWin.frm t ω σ i * worldMove gaugeWin.frm t ω σ j := by
  obtain ⟨ext, hext, -⟩ := exists_goodExt e
  have hc : hxCols gaugeWin.frm = 33 := by simp [hxCols, gaugeWin]
  have := C102_solve ⟨ext, fun n => 10 - n, id, fun _ _ => 0⟩ hext 1 (⟨33, 33, fun i j => if i = j then 1 else 0⟩ : DMat ℝ)
    ⟨33, 33, fun i j => (if i = j then 1 else 0) + worldMove gaugeWin.frm t ω σ i * worldMove gaugeWin.frm t ω σ j⟩ gaugeWin 1 gaugeWin_ok [0]
    (by simpa using gaugeWin_feat) (by simp [startRow, gaugeWin, two32]) hc.symm hc.symm hc.symm hc.symm (by intro i j _ _; simp [eq_comm])
    (fun i j => worldMove gaugeWin.frm t ω σ i * worldMove gaugeWin.frm t ω σ j) (by intro i j _ _; exact mul_comm _ _) (fun i j _ _ => rfl) ?_
  · rw [hc] at this
    obtain ⟨hxr, k, k', a1, a2, a3, -, -, -, -, -, -, -, -, a4, a5⟩ := this
    exact ⟨_, hxr, k, k', a1, a2, a3, a4, a5⟩
  · intro j hj
    refine ⟨_, _, _, Or.inr ?_, moves_scale (worldMove gaugeWin.frm t ω σ j) (worldMove_moves gaugeWin.frm t ω σ)⟩
    simp [gaugeWin, Quat.sqNorm, Quat.one]

end Update
end Vio
