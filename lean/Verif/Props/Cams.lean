/-
C121: the order in which the cameras of an observation are visited does not matter.  `FeatureObserve::norms` is a `std::unordered_map` (data_typedef.hpp:13) that is visited at
feature_manager.cpp:40 and data_typedef.cpp:52 to print it, and at backend_initialize.cpp:67 and multi_view_vision_update.cpp:127, 234.  The order decides the order of the rows of the triangulation and of the
measurement of a feature, so it reaches the decompositions of Eigen.
-/
import Verif.Lemmas.CamsRun
import Verif.Lemmas.Svd
import Verif.Props.Exact
import Verif.Props.UpdateJac
import Verif.Props.Startup

set_option linter.unusedSectionVars false

namespace Vio
open Spec WinSpec Update Res DMat

/-! ### When the columns of a landmark are independent -/

section Rank
variable {T : Type} [TimeOps T] [TimeCast T ℝ]

/-- A ray from a camera that reports the feature to the landmark; the depth is one that the filter uses. -/
def IsRay (m : FrameMgr ℝ T) (ft : Feature ℝ) (v : Vec3 ℝ) : Prop :=
  ∃ k o c n f e, ft.observes[k]? = some o ∧ (c, n) ∈ o.norms ∧ m.getFrame (add32 k ft.first) = some f ∧ m.extrinsics[c]? = some e ∧ f.q.sqNorm = 1 ∧ e.q.sqNorm = 1 ∧
    1 / 10000000000 < |((f.q.mul e.q).inverse.rotate v).z| ∧ v = ft.pw - (f.q.rotate e.p + f.p)

theorem kernel_of_ray (m : FrameMgr ℝ T) (b : Nat) (hw : WinOk m b) (ft : Feature ℝ) (hok : FeatOk m ft) (a : DMat ℝ)
    (ha : measLoop m ft 0 0 (.zero (mul32 ft.observeNum 2) (hxCols m + 4)) ft.observes = .ok (some a)) (x : Vec3 ℝ)
    (hx : ∀ i, i < a.rows → a.e i 0 * x.x + a.e i 1 * x.y + a.e i 2 * x.z = 0) (v : Vec3 ℝ) (hv : IsRay m ft v) : ∃ s : ℝ, x = .smul s v := by
  obtain ⟨g, hg⟩ : ∃ g, m.frames.head? = some g := ⟨_, List.head?_eq_some_head hw.ne⟩
  obtain ⟨l, hl⟩ : ∃ l, m.frames.getLast? = some l := ⟨_, List.getLast?_eq_some_getLast hw.ne⟩
  have hm : mul32 ft.observeNum 2 = 2 * totalObs ft.observes := by
    have := hok.lt
    rw [hok.num, mul32_of_lt (by omega)]; omega
  obtain ⟨a', m1, m2, m3, -, -, m6⟩ := measLoop_spec m ft b g l hw.ids hw.lt hg hl ft.observes 0 0 (.zero (mul32 ft.observeNum 2) (hxCols m + 4)) hok.res rfl
    (by simp [hm]) (fun _ _ _ => rfl)
  rw [ha] at m1
  cases m1
  obtain ⟨k, o, c, n, f, e, h1, h2, h3, h4, h5, h6, h7, h8⟩ := hv
  obtain ⟨f', f1, f2⟩ := m6 k o h1
  rw [Nat.zero_add, h3] at f1
  cases f1
  obtain ⟨k2, hk2, hk3⟩ := List.mem_iff_getElem.1 h2
  obtain ⟨B, b1, b2⟩ := f2 k2 c n (by rw [List.getElem?_eq_getElem hk2, hk3])
  have hfm := ((C13_getFrame m b hw.ids (add32 k ft.first)).1 f).1 h3
  obtain ⟨j, hj, hjf⟩ := List.mem_iff_getElem.1 hfm.1
  have hid : ∀ i (hi : i < m.frames.length), (m.frames[i]).id = b + i := by
    intro i hi
    have := congrArg (fun l => l[i]?) hw.ids
    simp only [List.getElem?_map, List.getElem?_eq_getElem hi, Option.map_some] at this
    rw [List.getElem?_range' (by omega)] at this
    simpa using this
  have hfid : f.id = b + j := by rw [← hjf]; exact hid j hj
  have hpos : 0 < m.frames.length := by omega
  have hgid : g.id = b := by
    rw [List.head?_eq_getElem?, List.getElem?_eq_getElem hpos] at hg
    cases hg
    simpa using hid 0 hpos
  have hlid : l.id = b + (m.frames.length - 1) := by
    rw [List.getLast?_eq_getElem?, List.getElem?_eq_getElem (by omega)] at hl
    cases hl
    exact hid _ (by omega)
  rw [hfid, hgid, hlid] at b1
  have hcam : (f.q.mul e.q).inverse.rotate v = camPoint f e ft.pw := by rw [h8]; exact view_camPoint f e h5 h6 ft.pw
  obtain ⟨B', n1, -, -, -, -, n6⟩ := measNorm_spec m f e ft.pw n b j c 0 (.zero 2 (hxCols m + 4)) hw.lt hj h4 rfl (by simp) (fun _ _ _ => rfl) (by rw [← hcam]; exact h7)
  rw [b1] at n1
  cases n1
  have htot : totalObs (ft.observes.take k) + o.norms.length ≤ totalObs ft.observes := by
    have e1 : ft.observes.take k ++ ft.observes.drop k = ft.observes := List.take_append_drop _ _
    have hk : k < ft.observes.length := by
      by_contra hc
      rw [List.getElem?_eq_none (by omega)] at h1
      cases h1
    have e2 : ft.observes.drop k = o :: ft.observes.drop (k + 1) := by
      rw [List.drop_eq_getElem_cons hk]
      rw [List.getElem?_eq_getElem hk] at h1
      cases h1; rfl
    rw [e2] at e1
    have : totalObs ft.observes = totalObs (ft.observes.take k ++ o :: ft.observes.drop (k + 1)) := by rw [e1]
    rw [this]
    simp only [totalObs, List.map_append, List.map_cons, List.sum_append, List.sum_cons]
    omega
  have hrow : ∀ i, i < 2 → (if i = 0 then (jacPw f e ft.pw).r0 else (jacPw f e ft.pw).r1).dot x = 0 := by
    intro i hi
    have key := n6 i hi (fun y => if y = 0 then x.x else if y = 1 then x.y else if y = 2 then x.z else 0)
    have hsum : ∑ y ∈ Finset.range (hxCols m + 3), B.e (0 + i) y * (if y = 0 then x.x else if y = 1 then x.y else if y = 2 then x.z else 0) = B.e i 0 * x.x + B.e i 1 * x.y + B.e i 2 * x.z := by
      rw [Nat.zero_add, ← Finset.sum_subset (s₁ := Finset.range 3) (by intro y hy; simp only [Finset.mem_range] at *; omega)]
      · simp [Finset.sum_range_succ]
      · intro y _ hy
        simp only [Finset.mem_range] at hy
        rw [if_neg (by omega), if_neg (by omega), if_neg (by omega), mul_zero]
    rw [hsum] at key
    have hz : ∀ (u : Vec3 ℝ) (o : Nat), 3 ≤ o → u.dot ⟨(if o = 0 then x.x else if o = 1 then x.y else if o = 2 then x.z else 0), (if o + 1 = 0 then x.x else if o + 1 = 1 then x.y else if o + 1 = 2 then x.z else 0),
        (if o + 2 = 0 then x.x else if o + 2 = 1 then x.y else if o + 2 = 2 then x.z else 0)⟩ = 0 := by
      intro u o ho
      rw [if_neg (by omega), if_neg (by omega), if_neg (by omega), if_neg (by omega), if_neg (by omega), if_neg (by omega), if_neg (by omega), if_neg (by omega), if_neg (by omega)]
      simp [Vec3.dot]
    dsimp only at key
    rw [hz _ (if j = m.frames.length - 1 then 3 else 18 + m.extrinsics.length * 6 + j * 6) (by split <;> omega),
      hz _ (if j = m.frames.length - 1 then 9 else 18 + m.extrinsics.length * 6 + j * 6 + 3) (by split <;> omega), hz _ (18 + c * 6) (by omega), hz _ (18 + c * 6 + 3) (by omega)] at key
    have hx' := hx (0 + 2 * (totalObs (ft.observes.take k) + k2) + i) (by
      rw [m2, DMat.zero_rows, hm]
      omega)
    rw [b2 i hi, b2 i hi, b2 i hi, key] at hx'
    simpa using hx'
  have r0 := hrow 0 (by omega)
  have r1 := hrow 1 (by omega)
  rw [if_pos rfl] at r0
  rw [if_neg (by omega)] at r1
  set y := (f.q.mul e.q).inverse.rotate x with hy
  have hye : y = e.q.inverse.toMat.mulVec (f.q.inverse.toMat.mulVec x) := by
    rw [hy, Quat.inverse_mul _ _ h5 h6, Quat.rotate_mul _ _ (Quat.sqNorm_inverse_of_unit _ h6) (Quat.sqNorm_inverse_of_unit _ h5), Quat.toMat_mulVec, Quat.toMat_mulVec]
  set p := camPoint f e ft.pw with hp
  have hpz : p.z ≠ 0 := by
    intro hc
    rw [hcam, hc] at h7
    norm_num at h7
  have d0 : y.x / p.z - p.x * y.z / (p.z * p.z) = 0 := by
    rw [← r0, hye]
    simp only [jacPw, ← hp, projJac, Mat23.mulMat, Mat3.transpose, Mat3.mulVec, Vec3.dot, ScalarFn.lit_real]
    push_cast
    ring
  have d1 : y.y / p.z - p.y * y.z / (p.z * p.z) = 0 := by
    rw [← r1, hye]
    simp only [jacPw, ← hp, projJac, Mat23.mulMat, Mat3.transpose, Mat3.mulVec, Vec3.dot, ScalarFn.lit_real]
    push_cast
    ring
  have hyp : y = .smul (y.z / p.z) p := by
    apply Vec3.ext
    · show y.x = y.z / p.z * p.x
      field_simp at d0 ⊢
      linarith
    · show y.y = y.z / p.z * p.y
      field_simp at d1 ⊢
      linarith
    · show y.z = y.z / p.z * p.z
      field_simp
  refine ⟨y.z / p.z, ?_⟩
  have hu : (f.q.mul e.q).sqNorm = 1 := by rw [Quat.sqNorm_mul, h5, h6, one_mul]
  have back : ∀ t : Vec3 ℝ, (f.q.mul e.q).rotate ((f.q.mul e.q).inverse.rotate t) = t := by
    intro t
    rw [← Quat.rotate_mul _ _ hu (Quat.sqNorm_inverse_of_unit _ hu), Quat.mul_inverse_of_unit _ hu, Quat.rotate_one]
  rw [← back x, ← back v, ← Quat.rotate_smul, hcam, ← hyp]

/-- Two rays that are not parallel determine the landmark: the columns of the landmark are independent. -/
theorem rank_of_rays (m : FrameMgr ℝ T) (b : Nat) (hw : WinOk m b) (ft : Feature ℝ) (hok : FeatOk m ft) (v v' : Vec3 ℝ) (hv : IsRay m ft v) (hv' : IsRay m ft v') (hp : v.cross v' ≠ 0) :
    LandmarkRank m ft := by
  intro a ha hdet
  obtain ⟨z, z1, z2⟩ := Matrix.exists_mulVec_eq_zero_iff.2 hdet
  have hz : (a.toM a.rows 3).mulVec z = 0 := by
    rw [← Matrix.mulVec_mulVec] at z2
    have : dotProduct ((a.toM a.rows 3).mulVec z) ((a.toM a.rows 3).mulVec z) = 0 := by
      rw [Matrix.dotProduct_mulVec, ← Matrix.mulVec_transpose, z2, zero_dotProduct]
    exact dotProduct_self_eq_zero.1 this
  have hx : ∀ i, i < a.rows → a.e i 0 * z 0 + a.e i 1 * z 1 + a.e i 2 * z 2 = 0 := by
    intro i hi
    have := congrFun hz ⟨i, hi⟩
    simpa [Matrix.mulVec, dotProduct, Fin.sum_univ_three, DMat.toM] using this
  obtain ⟨s, hs⟩ := kernel_of_ray m b hw ft hok a ha ⟨z 0, z 1, z 2⟩ hx v hv
  obtain ⟨s', hs'⟩ := kernel_of_ray m b hw ft hok a ha ⟨z 0, z 1, z 2⟩ hx v' hv'
  have hcr : Vec3.cross (⟨z 0, z 1, z 2⟩ : Vec3 ℝ) ⟨z 0, z 1, z 2⟩ = .smul (s * s') (v.cross v') := by
    nth_rewrite 1 [hs]
    rw [hs']
    apply Vec3.ext <;> simp [Vec3.cross, Vec3.smul] <;> ring
  have hss : s * s' = 0 := by
    by_contra hc
    apply hp
    have h0 : Vec3.cross (⟨z 0, z 1, z 2⟩ : Vec3 ℝ) ⟨z 0, z 1, z 2⟩ = 0 := by
      apply Vec3.ext <;> simp [Vec3.cross] <;> ring
    rw [h0] at hcr
    have e1 := congrArg Vec3.x hcr
    have e2 := congrArg Vec3.y hcr
    have e3 := congrArg Vec3.z hcr
    simp only [Vec3.smul, Vec3.zero_x, Vec3.zero_y, Vec3.zero_z] at e1 e2 e3
    apply Vec3.ext
    · simpa [hc] using e1.symm
    · simpa [hc] using e2.symm
    · simpa [hc] using e3.symm
  have h0 : (⟨z 0, z 1, z 2⟩ : Vec3 ℝ) = 0 := by
    rcases mul_eq_zero.1 hss with h | h
    · rw [hs, h]; apply Vec3.ext <;> simp
    · rw [hs', h]; apply Vec3.ext <;> simp
  apply z1
  funext i
  fin_cases i
  · exact congrArg Vec3.x h0
  · exact congrArg Vec3.y h0
  · exact congrArg Vec3.z h0

end Rank

/-! ### The library -/

/-- The inner products of the first four columns. -/
private def gram (a : DMat ℝ) : Nat → Nat → ℝ := fun i j => if i < 4 ∧ j < 4 then ∑ x ∈ Finset.range a.rows, a.e x i * a.e x j else 0

private theorem imageSq_gram (a : DMat ℝ) (x : Nat → ℝ) : imageSq a x = ∑ i ∈ Finset.range 4, ∑ j ∈ Finset.range 4, gram a i j * (x i * x j) := by
  have h : ∀ i j, i < 4 → j < 4 → gram a i j = ∑ k ∈ Finset.range a.rows, a.e k i * a.e k j := fun i j hi hj => by unfold gram; rw [if_pos ⟨hi, hj⟩]
  unfold imageSq
  have : ∀ i ∈ Finset.range 4, ∑ j ∈ Finset.range 4, gram a i j * (x i * x j) = ∑ k ∈ Finset.range a.rows, ∑ j ∈ Finset.range 4, a.e k i * x i * (a.e k j * x j) := by
    intro i hi
    rw [Finset.sum_comm]
    refine Finset.sum_congr rfl (fun j hj => ?_)
    rw [h i j (Finset.mem_range.1 hi) (Finset.mem_range.1 hj), Finset.sum_mul]
    exact Finset.sum_congr rfl (fun k _ => by ring)
  rw [Finset.sum_congr rfl this, Finset.sum_comm]
  refine Finset.sum_congr rfl (fun k _ => ?_)
  rw [pow_two, Finset.sum_mul_sum]

/-- A library exists that meets the specifications of the decompositions and whose singular vector is determined by the inner products of the columns. -/
theorem exists_svdOfColumns : ∃ ext : Ext ℝ, GoodExt ext ∧ ext.SvdOfColumns ∧ ∀ a, IsLastSingular a (ext.svdLast a) := by
  classical
  obtain ⟨f, hf⟩ := exists_svd
  have : Nonempty (DMat ℝ) := ⟨.zero 0 0⟩
  obtain ⟨ext, hg, h1, -⟩ := exists_goodExt ⟨fun a => f (Function.invFun gram (gram a)), fun _ v => v, fun _ _ => ⟨0, 0⟩, fun _ _ _ => 0, fun _ _ => 0, fun _ _ _ => 0⟩
  refine ⟨ext, hg, fun a b _ _ hab => ⟨1, by norm_num, fun j _ => ?_⟩, fun a => ?_⟩
  · rw [h1, one_mul]
    have : gram a = gram b := by
      funext i j
      unfold gram
      split
      · rename_i hij; exact hab i j hij.1 hij.2
      · rfl
    dsimp only
    rw [this]
  · rw [h1]
    have hr : gram (Function.invFun gram (gram a)) = gram a := Function.invFun_eq ⟨a, rfl⟩
    have hs := hf (Function.invFun gram (gram a))
    refine ⟨hs.unit, fun y hy => ?_⟩
    have := hs.least y hy
    rwa [imageSq_gram, imageSq_gram, hr, ← imageSq_gram, ← imageSq_gram] at this

/-! ### Histories -/

namespace Backend
variable {T : Type} [TimeOps T] [TimeCast T ℝ] [LinearOrder T] [TimeLaws T] [CastLaws T ℝ]

/-- C121: a history of a well-formed tracker returns the same values whatever the order in which the cameras of the observations are visited, if the landmarks that the filter uses have
independent columns (two rays that are not parallel are enough, `rank_of_rays`) and the singular vector of the library is determined by the inner products of the columns.  The keys of the
maps in the memory of the features are distinct, as those of a map always are. -/
theorem C121_cameras (p : BProc ℝ T) (ops ops' : List (BOp ℝ T)) (hf : Fresh p.b) (hr : Ready p.b) (hg : GoodRun p.b.u.w.frm.extrinsics.length p ops)
    (hheap : ∀ r, ∀ o ∈ (p.b.u.w.feat.heap r).observes, (o.norms.map (·.1)).Nodup) (hrank : RankedRun p ops)
    (hlib : ∀ env, .run env ∈ ops → GoodExt env.ext ∧ env.ext.SvdOfColumns) (hops : List.Forall₂ OpSameMaps ops ops')
    (na ng nwa nwg : ℝ) (h1 : 0 ≤ na) (h2 : 0 ≤ ng) (h3 : 0 ≤ nwa) (h4 : 0 ≤ nwg) (st : Motion ℝ) (ba bg : Vec3 ℝ)
    (hq : p.b.u.q = { PropQueue.init st with Q := PropQueue.noiseMatrix na ng nwa nwg, biasA := ba, biasG := bg }) :
    outputs p ops = outputs p ops' ∧ ∃ os, outputs p ops' = .ok os := by
  have hsolv : GoodSolvers ops := fun env hm => (hlib env hm).1
  have hqs : QSame p.b.u.q p.b.u.q := by
    rw [hq]
    exact QSame.self _ rfl rfl rfl (by intro i hi; cases hi)
  have hw : p.b.u.w.Cam p.b.u.w := ⟨⟨fun r => ⟨rfl, rfl, List.forall₂_same.2 (fun o ho => ⟨.refl _, hheap r o ho⟩), rfl, rfl, rfl⟩, rfl, rfl⟩, rfl⟩
  have hl : LCam p.b.loader p.b.loader := ⟨by rw [hf.feat]; exact .nil, rfl, rfl, rfl⟩
  have hp : PCam p p := ⟨rfl, rfl, hl, ⟨hqs, hw, rfl, Agree.refl _, rfl⟩, rfl, rfl, rfl, rfl, rfl, rfl⟩
  have hinv : FilterInv p.b.u.w.frm.extrinsics.length p.b.u.w.frm.maxWindowSize p.b.maxUsed p ops :=
    ⟨⟨_, fresh_stable p.b hf hr⟩, hr.period, hr.half, hg, covOk_start p.b na ng nwa nwg h1 h2 h3 h4 st ba bg hq hf.frames hf.status, hsolv⟩
  obtain ⟨p', outs, h⟩ := C68_no_ub_partial p ops hf hr hg
  obtain ⟨⟨p2, outs2⟩, k1, -, k2⟩ := run_cam hr.fits hops hlib p p hp hinv hrank _ h
  dsimp only at k2
  subst k2
  unfold outputs
  rw [h, k1]
  exact ⟨rfl, _, rfl⟩

/-! ### Concrete cases -/

/-- A window of one frame at the origin, seen by two cameras one unit apart. -/
noncomputable def exRays : FrameMgr ℝ ℝ := ⟨[⟨0, [], .one, 0, 0, 3, 0⟩], 1, [⟨.one, 0⟩, ⟨.one, ⟨1, 0, 0⟩⟩], 2, 0, 0, 0⟩

/-- A landmark before both. -/
noncomputable def exRaysFeat : Feature ℝ := ⟨5, 3, [⟨[(0, ⟨0, 0⟩), (1, ⟨-1 / 2, 0⟩)]⟩], 2, ⟨0, 0, 2⟩, .solved⟩

/-- `rank_of_rays`: a landmark that meets its hypotheses. -/
example : LandmarkRank exRays exRaysFeat := by
  have hin : ∀ v : Vec3 ℝ, ((Quat.one : Quat ℝ).mul .one).inverse.rotate v = v := by
    intro v; apply Vec3.ext <;> simp [Quat.one, Quat.mul, Quat.inverse, Quat.sqNorm, Quat.rotate, Quat.vec]
  have hone : (Quat.one : Quat ℝ).sqNorm = 1 := by simp [Quat.one, Quat.sqNorm]
  have hget : exRays.getFrame (add32 0 exRaysFeat.first) = some ⟨0, [], .one, 0, 0, 3, 0⟩ := by
    show exRays.getFrame (add32 0 3) = _
    rw [show add32 0 3 = 3 by decide]
    simp [FrameMgr.getFrame, exRays]
  refine rank_of_rays exRays 3 ⟨rfl, by show 3 + 1 ≤ two32; decide, by simp [exRays]⟩ exRaysFeat ⟨rfl, by decide, by show 2 * 2 < two32; decide, ?_⟩ ⟨0, 0, 2⟩ ⟨-1, 0, 2⟩ ?_ ?_ ?_
  · intro j o ho
    match j, ho with
    | 0, ho =>
      rw [Nat.zero_add, hget]
      refine ⟨rfl, fun x hx => ?_⟩
      cases ho
      show x.1 < 2
      rcases List.mem_cons.1 hx with rfl | hx
      · decide
      · obtain rfl := List.mem_singleton.1 hx
        decide
    | j + 1, ho => cases ho
  · refine ⟨0, _, 0, _, ⟨0, [], .one, 0, 0, 3, 0⟩, ⟨.one, 0⟩, rfl, List.mem_cons_self, hget, rfl, hone, hone, ?_, ?_⟩
    · dsimp only; rw [hin]; norm_num
    · dsimp only [exRaysFeat]; rw [one_rotate]; apply Vec3.ext <;> simp
  · refine ⟨0, _, 1, _, ⟨0, [], .one, 0, 0, 3, 0⟩, ⟨.one, ⟨1, 0, 0⟩⟩, rfl, List.mem_cons_of_mem _ List.mem_cons_self, hget, rfl, hone, hone, ?_, ?_⟩
    · dsimp only; rw [hin]; norm_num
    · dsimp only [exRaysFeat]; rw [one_rotate]; apply Vec3.ext <;> simp
  · intro h
    have := congrArg Vec3.y h
    norm_num [Vec3.cross] at this

/-- One image seen by two cameras. -/
noncomputable def exCamsOps (env : Env ℝ) (o : Obs ℝ) : List (BOp ℝ ℝ) :=
  [.imu (exStartImu 0), .run env, .imu (exStartImu 1), .feat ⟨List.range 10, List.replicate 10 o, 1⟩, .run env, .publishPropagate]

theorem exCams_fresh : Fresh exStartProc.b := ⟨rfl, rfl, rfl, rfl, rfl, rfl, rfl⟩

theorem exCams_ready : Ready exStartProc.b := by
  refine ⟨rfl, ?_, ?_, ⟨by decide, by decide, by decide⟩⟩
  · show (((0 : ℚ) : ℝ)) ≤ 1 / 10; norm_num
  · show (1 / 10 : ℝ) * ((55 / 100 : ℚ) : ℝ) ≤ 1 / 10; norm_num

theorem exCams_msg (env : Env ℝ) : ∀ m ∈ featMsgs (exCamsOps env exRestObs), MsgOk 2 m := by
  intro m hm
  obtain rfl : m = exStartMsg 1 := List.mem_singleton.1 hm
  refine ⟨by show (List.range 10).Nodup; decide, by simp [exStartMsg], ?_⟩
  intro o ho
  obtain rfl : o = exRestObs := by simpa [exStartMsg] using ho
  show _ ∧ _ ∧ ∀ x ∈ exRestObs.norms, x.1 < 2
  simp [exRestObs]

theorem exCams_continuous (env : Env ℝ) : Continuous ((featMsgs (exCamsOps env exRestObs)).map (·.ids)) := by
  intro x y z h
  have := h.length_le
  simp [exCamsOps, featMsgs] at this

theorem exCams_noReset (env : Env ℝ) (o : Obs ℝ) : ∀ op ∈ exCamsOps env o, op ≠ .reset := by
  intro op hop h; subst h; revert hop; simp [exCamsOps]

theorem exCams_ranked (env : Env ℝ) : RankedRun exStartProc (exCamsOps env exRestObs) := by
  have hnot : ∀ (env : Env ℝ) (p : BProc ℝ ℝ), p.b.status = .needInit → p.b.u.w.frm.frames = [] → RankedCall env p := by
    intro env p h1 h2 res b1 m b2 mgr w2 sel pos k1 _ k3 k4
    obtain ⟨-, e1, e2, -⟩ := onImu_keep _ _ _ _ _ k1
    obtain ⟨-, -, -, -, -, -, k⟩ := tryInit_keep env p.g _ b2 k3
    have := (k (e1.trans h1) k4).1
    have i1 : (b1.setWin (b1.u.w.insert m)).u.w.frm.frames.length = b1.u.w.frm.frames.length + 1 := (insert_length b1.u.w m).1
    rw [i1, e2] at this
    rw [show ({ p.b with loader := p.b.loader.popOne.loader } : Backend ℝ ℝ).u.w.frm.frames = [] from h2] at this
    simp at this
  have h0 : (exStart.loader.offset : ℝ) = -1 := by show ((-1 : ℚ) : ℝ) = -1; norm_num
  refine ⟨nofun, fun pa oa ha => ?_⟩
  obtain rfl := ex_stepImu _ _ _ 0 ha h0 (by norm_num [exStartProc])
  refine ⟨fun env _ => hnot env _ rfl rfl, fun pb ob hb => ?_⟩
  obtain ⟨b1, b2, r1, b3⟩ := ex_stepRun _ _ _ _ hb
  have b4 := ex_runImu _ _ _ _ _ (exStartImu (0 + 1)) rfl rfl rfl b3
  have s1 : pb.b.status = .needInit := by rw [b4]; rfl
  have f1 : pb.b.u.w.frm.frames = [] := by rw [b4]; rfl
  refine ⟨nofun, fun pc oc hc => ⟨nofun, fun pd od hd => ⟨fun env _ => ?_, fun pe oe he => ⟨nofun, fun _ _ _ => trivial⟩⟩⟩⟩
  rw [BProc.step] at hc
  cases hc
  rw [BProc.step] at hd
  cases hd
  exact hnot env _ s1 f1

theorem exCams_sameMaps (env : Env ℝ) : List.Forall₂ OpSameMaps (exCamsOps env exRestObs) (exCamsOps env ⟨exRestObs.norms.reverse⟩) := by
  refine .cons (.other _ nofun) (.cons (.other _ nofun) (.cons (.other _ nofun) (.cons (.feat _ _ ⟨rfl, ?_, rfl⟩) (.cons (.other _ nofun) (.cons (.other _ nofun) .nil)))))
  show List.Forall₂ Obs.SameMap (List.replicate 10 exRestObs) (List.replicate 10 _)
  generalize 10 = n
  induction n with
  | zero => exact .nil
  | succ n ih => exact .cons ⟨(List.reverse_perm _).symm, by simp [exRestObs]⟩ ih

/-- C121: the cameras of every observation in the other order.  The filter does not start with one image, so the hypothesis on the landmarks asks nothing here; `rank_of_rays` shows how it is met. -/
example : ∃ env : Env ℝ, outputs exStartProc (exCamsOps env exRestObs) = outputs exStartProc (exCamsOps env ⟨exRestObs.norms.reverse⟩) := by
  obtain ⟨ext, hg, hs, -⟩ := exists_svdOfColumns
  refine ⟨⟨ext, id, id, fun _ _ => 0⟩, ?_⟩
  have hgr := tracker_goodRun exStartProc _ exCams_fresh exCams_ready (exCams_noReset ⟨ext, id, id, fun _ _ => 0⟩ exRestObs) (exCams_msg _) (exCams_continuous _) (by show 1 + 1 < two32; decide)
  refine (C121_cameras exStartProc _ _ exCams_fresh exCams_ready hgr nofun (exCams_ranked _) ?_ (exCams_sameMaps _) 1 2 3 4 (by norm_num) (by norm_num) (by norm_num) (by norm_num) ⟨0, 0, .one⟩ 0 0 rfl).1
  intro env he
  obtain rfl : env = ⟨ext, id, id, fun _ _ => 0⟩ := by simpa [exCamsOps] using he
  exact ⟨hg, hs⟩

end Backend
end Vio
