/-
Concrete cases that meet the hypotheses of theorems whose files have none: C05, C13, C14, C35 - C38, C49, C54, C57, C59, C62, C63, C67, C72, C74, C80 and C106.
-/
import Verif.Props.Heading
import Verif.Props.TwoViews
import Verif.Props.Math
import Verif.Props.Pnp
import Verif.Props.ExactRun
import Verif.Props.Config
import Verif.Props.Loader
import Verif.Props.Window
import Verif.Props.UpdateState
import Verif.Props.Degenerate

set_option linter.unusedSectionVars false

namespace Vio

/-! ### The data loader -/

/-- C05: all seven outcomes of `PopOneMessage`: nothing, IMU only, features only, the older IMU message, both because they are close, features alone because they are far apart, and both
for equal times. -/
example : (([(([] : List (ImuMsg ℚ ℚ)), ([] : List (FeatMsg ℚ ℚ))), ([imuAt 1], []), ([], [featAt 1]), ([imuAt 1], [featAt 2]), ([imuAt (1 + 1/1000)], [featAt 1]),
      ([imuAt 2], [featAt 1]), ([imuAt 1], [featAt 1])].map fun x =>
        ((⟨{}, fun _ => { (Loader.init : Loader ℚ ℚ) with imuMeas := x.1, featMeas := x.2 }⟩ : LProc ℚ ℚ).step (.popOne 0)).check fun r =>
          match r.2 with
          | .popped b c => decide ((b, c.imuMeas.length, c.featMeas.toList.length, (r.1.loaders 0).imuMeas.length, (r.1.loaders 0).featMeas.length) =
              (if x.1.isEmpty && x.2.isEmpty then (false, 0, 0, 0, 0)
               else if x.2.isEmpty then (true, 1, 0, 0, 0)
               else if x.1.isEmpty then (true, 0, 1, 0, 0)
               else if x.2 = [featAt 2] then (true, 1, 0, 0, 1)
               else if x.1 = [imuAt 2] then (true, 0, 1, 1, 0)
               else (true, 1, 1, 0, 0)))
          | _ => false) = [true, true, true, true, true, true, true]) := by decide +kernel

/-! ### The window -/

/-- A frame with the given id, at `x = id` and flying along `y`. -/
def frmAt (n : Nat) : Frame ℚ ℚ := ⟨100 + n, [], .one, ⟨n, 0, 0⟩, ⟨0, n, 0⟩, n, n⟩

/-- Three frames with the ids 5, 6 and 7. -/
def win567 : FrameMgr ℚ ℚ := ⟨[frmAt 5, frmAt 6, frmAt 7], 0, [], 10, 1, 0, 1⟩

/-- C13: the ids are consecutive; the second frame is found, ids on either side are not, and the newest id is 7. -/
example : win567.frames.map (·.id) = List.range' 5 win567.frames.length ∧ (win567.getFrame 6).map (·.p) = some ⟨6, 0, 0⟩ ∧ (win567.getFrame 4).isNone ∧ (win567.getFrame 8).isNone ∧
    win567.getMaxFrameID = 7 := by decide +kernel

/-- C13 at this window. -/
example : win567.getFrame 6 = some (frmAt 6) := ((C13_getFrame win567 5 (by decide +kernel) 6).1 _).2 ⟨by simp [win567], rfl⟩

/-- C14: a new frame takes the pose of frame 7. -/
example : ∃ f, (win567.addNewFrame (frmAt 9)).1.frames = win567.frames ++ [f] ∧ f.p = ⟨7, 0, 0⟩ ∧ f.v = ⟨0, 7, 0⟩ ∧ f.ts = 9 := by
  obtain ⟨f, h1, -, h2, h3, h4, -⟩ := C14_new_frame_pose win567 (frmAt 9) (frmAt 7) [frmAt 5, frmAt 6] rfl
  exact ⟨f, h1, h2, h3, h4⟩

/-! ### The propagation queue -/

section
open PropQueue PropSpec

/-- C38: the first sample starts at the initial state, which the second ignores; a drone at rest stays there. -/
example : let st : Motion ℚ := ⟨⟨1, 2, 3⟩, 0, .one⟩
    let s : PropQueue ℚ ℚ := run 2 (init st) [.sample ⟨0, 0, 10⟩ ⟨0, 0, 10⟩ 0 0]
    s.items.map (fun i => (i.st.p, i.ts, i.imuEx.cols)) = [((⟨1, 2, 3⟩ : Vec3 ℚ), (0 : ℚ), 18)] ∧
    (({ s with initState := ⟨0, 0, .one⟩ } : PropQueue ℚ ℚ).propagate 2 ⟨0, 0, 10⟩ ⟨0, 0, 10⟩ 0 1).items.map (fun i => (i.st.p, i.ts)) = [((⟨1, 2, 3⟩ : Vec3 ℚ), (0 : ℚ)), (⟨1, 2, 3⟩, 1)] := by
  decide +kernel

/-- A queue of four samples; the drone speeds up along x. -/
def fourSamples : PropQueue ℚ ℚ := run 1 (init ⟨0, 0, .one⟩) ((List.range 4).map fun k => .sample ⟨0, 0, 10⟩ ⟨1, 0, 10⟩ 0 k)

/-- C37: of the times 0, 1, 2, 3 those older than 1.5 at time 3 go; with a negative threshold all go and the result is false. -/
example : (fourSamples.resetOrigin 3 (3/2)).1.items.map (·.ts) = [2, 3] ∧ (fourSamples.resetOrigin 3 (3/2)).2 = true ∧
    (fourSamples.resetOrigin 3 (-1)).1.items = [] ∧ (fourSamples.resetOrigin 3 (-1)).2 = false ∧ fourSamples.items.Pairwise (fun a b => a.ts ≤ b.ts) := by
  refine ⟨by decide +kernel, by decide +kernel, ?_, by decide +kernel, ?_⟩
  · have : (fourSamples.resetOrigin 3 (-1)).1.items.length = 0 := by decide +kernel
    exact List.length_eq_zero_iff.1 this
  · have : (fourSamples.items.map (·.ts)).Pairwise (· ≤ ·) := by decide +kernel
    exact List.pairwise_map.1 this

/-- C36: when the first item is moved and given a speed, the later ones follow; without the change they stay. -/
example : ((correct fourSamples ⟨⟨0, 5, 0⟩, ⟨0, 1, 0⟩, .one⟩ (.zero 15 15) (.zero 15 12) (.zero 12 12) 0 0).repropagate ⟨0, 0, 10⟩).items.map (·.st.p) =
      [⟨0, 5, 0⟩, ⟨1/2, 6, 0⟩, ⟨2, 7, 0⟩, ⟨9/2, 8, 0⟩] ∧
    (fourSamples.repropagate ⟨0, 0, 10⟩).items.map (·.st.p) = fourSamples.items.map (·.st.p) ∧ fourSamples.items.map (·.st.p) = [0, ⟨1/2, 0, 0⟩, ⟨2, 0, 0⟩, ⟨9/2, 0, 0⟩] := by
  decide +kernel

/-- C36_fixed_when_unchanged and C35_same_after_any_two: their hypotheses hold for a queue with one sample, whose scratch matrices are clean, and for two different histories without bias. -/
example : (let s : PropQueue ℚ ℚ := run 1 (init ⟨0, 0, .one⟩) [.sample ⟨0, 0, 10⟩ ⟨1, 0, 10⟩ 0 0]
    Clean s ∧ ∃ i0, s.items = [i0]) ∧
    (fourSamples.biasA = (run 0 (init ⟨⟨1, 1, 1⟩, 0, .one⟩) [.reset 0 0] : PropQueue ℚ ℚ).biasA ∧ fourSamples.biasG = (run 0 (init ⟨⟨1, 1, 1⟩, 0, .one⟩) [.reset 0 0] : PropQueue ℚ ℚ).biasG) := by
  refine ⟨⟨clean_step 1 (init (⟨0, 0, .one⟩ : Motion ℚ) : PropQueue ℚ ℚ) (.sample ⟨0, 0, 10⟩ ⟨1, 0, 10⟩ 0 0) ⟨fun _ _ _ _ => rfl, fun _ _ => rfl⟩, _, rfl⟩, by decide +kernel, by decide +kernel⟩

end

/-! ### The correction of the state -/

section
open Update

/-- One camera and two frames. -/
noncomputable def exMgr : FrameMgr ℝ ℝ := ⟨[⟨0, [], .one, 0, 0, 1, 0⟩, ⟨1, [], .one, 0, 0, 2, 0⟩], 0, [⟨.one, 0⟩], 10, 1, 0, 1⟩

/-- One queued state. -/
noncomputable def exQueue : PropQueue ℝ ℝ := { (PropQueue.init ⟨0, 0, .one⟩ : PropQueue ℝ ℝ) with items := [⟨⟨0, 0, .one⟩, .zero 15 15, .zero 15 12, 0, 0, 0⟩] }

/-- C49: a correction that moves everything is defined, and all its conclusions apply. -/
example : ∃ s' m', correct (⟨27, 1, fun i _ => (i : ℝ)⟩ : DMat ℝ) exQueue exMgr = .ok (s', m') ∧ UnitAtt s' m' ∧ m'.frames.length = 2 ∧
    ∃ i0 b', s'.items.head? = some i0 ∧ m'.frames.getLast? = some b' ∧ b'.p = i0.st.p ∧ b'.p = ⟨0, 1, 2⟩ := by
  have one : (Quat.one : Quat ℝ).sqNorm = 1 := by simp [Quat.one, Quat.sqNorm]
  have h := correct_eq ⟨27, 1, fun i _ => (i : ℝ)⟩ exQueue exMgr ⟨⟨0, 0, .one⟩, .zero 15 15, .zero 15 12, 0, 0, 0⟩ [] [⟨0, [], .one, 0, 0, 1, 0⟩] ⟨1, [], .one, 0, 0, 2, 0⟩ rfl rfl
    (by simp) rfl (by show 15 + 1 * 6 + 1 * 6 ≤ 27; omega)
  refine ⟨_, _, h, ?_⟩
  obtain ⟨h1, ⟨i0, b', h2, h3, h4, -⟩, h5, -⟩ := C49_correction _ _ _ _ _ [⟨0, [], .one, 0, 0, 1, 0⟩] ⟨1, [], .one, 0, 0, 2, 0⟩ (by rfl) (by simp) rfl rfl h
  refine ⟨h1 ⟨?_, ?_, ?_⟩, h5, i0, b', h2, h3, h4, ?_⟩
  · simp [exQueue, one]
  · simp [exMgr, one]
  · simp [exMgr, one]
  · rw [h4]
    simp only [List.head?_cons, Option.some.injEq] at h2
    rw [← h2]
    apply Vec3.ext <;> simp [seg, motionAfter]

end

/-! ### Triangulation and PnP -/

/-- C54_two_rays_partial: two cameras a unit apart look at a point two units ahead; with any correct decomposition it is found. -/
example (ext : Ext ℝ) (hsvd : ∀ a, Spec.IsLastSingular a (ext.svdLast a)) :
    Triang.analytic ext [.one, .one] [0, ⟨1, 0, 0⟩] [⟨0, 0⟩, Triang.exN 2] 0 = .ok (true, ⟨0, 0, 2⟩) := by
  refine Triang.C54_two_rays_partial ext _ _ _ 0 ⟨0, 0, 2⟩ rfl rfl (Triang.ex_obs 2 (by norm_num)) hsvd 0 1 (by simp) (by simp) (by simp [Quat.one, Quat.sqNorm]) (by simp [Quat.one, Quat.sqNorm]) ?_
    (by norm_num [Vec3.sqNorm])
  intro h
  have := congrArg Vec3.y h
  norm_num [Vec3.cross] at this

section
open Pnp

/-- C57: without an iteration the pose is the given one, which need not be unit. -/
example (ext : Ext ℝ) : estimate ext { (.default : PnpParam ℝ) with maxIter := 0 } false [⟨0, 0, 1⟩] [⟨0, 0⟩] ⟨⟨2, 0, 0, 0⟩, 0⟩ = (true, ⟨⟨2, 0, 0, 0⟩, 0⟩) := rfl

/-- C57: with the default parameters the same start becomes a unit quaternion, whatever the solver does. -/
example (ext : Ext ℝ) : (estimate ext .default false [⟨0, 0, 1⟩] [⟨0, 0⟩] ⟨⟨2, 0, 0, 0⟩, 0⟩).2.q.sqNorm = 1 :=
  C57_unit_partial ext .default false [⟨0, 0, 1⟩] [⟨0, 0⟩] ⟨⟨2, 0, 0, 0⟩, 0⟩ rfl (by simp) (by show 0 < 10; omega) (by simp)

/-- C59: a camera a unit to the right sees a point in front of it. -/
example : let s : Pose ℝ := ⟨.one, ⟨1, 0, 0⟩⟩
    s.q.sqNorm = 1 ∧ (s.q.inverse.rotate ((⟨1, 2, 4⟩ : Vec3 ℝ) - s.p)).z ≠ 0 := by
  refine ⟨by simp [Quat.one, Quat.sqNorm], ?_⟩
  rw [Triang.ex_rot]
  norm_num

/-- C62: with an empty vector the flag of the exact point is set and that of a point half a unit off is not. -/
example : flags (.default : PnpParam ℚ) [(⟨0, 0, 1⟩, ⟨0, 0⟩), (⟨0, 0, 1⟩, ⟨1/2, 0⟩)] ⟨.one, 0⟩ [] = [true, false] := by decide +kernel

/-- C62_call: with two points the overload succeeds and writes the flags of its result. -/
example : (ransacFlags ⟨fun _ _ => 0, fun _ v => v, fun _ _ => ⟨0, 0⟩, fun _ _ _ => 0, fun _ _ => 0, fun _ _ _ => 0⟩ (.default : PnpParam ℚ) id 50
      [⟨0, 0, 1⟩, ⟨1, 0, 1⟩, ⟨0, 1, 1⟩, ⟨1, 1, 1⟩] [⟨0, 0⟩, ⟨1, 0⟩, ⟨0, 1⟩, ⟨2, 2⟩] ⟨.one, 0⟩ []).map (fun r => r.check (fun x => x.1 && decide (x.2.2 = [true, true, true, false]))) = some true := by
  decide +kernel

/-- C63: both weights with parameter one at the residuals one half and four. -/
example : cauchy (1 : ℝ) (1/2) = 1 ∧ cauchy (1 : ℝ) 4 < 1 ∧ 0 < huber (1 : ℝ) 4 := by
  refine ⟨(C63_cauchy 1 _ one_pos).2.2 (by norm_num), ?_, (C63_huber_partial 1 4 one_pos).2.2 (by norm_num)⟩
  simp only [cauchy, ScalarFn.lt]
  norm_num
  have := Real.log_le_sub_one_of_pos (show (0 : ℝ) < 2 by norm_num)
  linarith

end

/-! ### Quaternions -/

/-- C80_transform_compose, C80_transform_inverse: a half turn about x and one about y are unit quaternions that differ from the identity. -/
example : (⟨0, 1, 0, 0⟩ : Quat ℝ).sqNorm = 1 ∧ (⟨0, 0, 1, 0⟩ : Quat ℝ).sqNorm = 1 ∧ ((⟨0, 1, 0, 0⟩ : Quat ℝ).mul ⟨0, 0, 1, 0⟩) = ⟨0, 0, 0, 1⟩ := by
  refine ⟨by simp [Quat.sqNorm], by simp [Quat.sqNorm], ?_⟩
  simp [Quat.mul]

/-! ### The backend -/

namespace Backend

/-- C67: `ConfigParams` returns for a directory with two files; the window limit is the number in the file. -/
example : (configParams Conf.exLib Conf.exFs "c" 1 .init 0 (init ⟨0, 0, .one⟩ : Backend ℚ ℚ)).check
    (fun o => o.any (fun r => r.1 && decide (r.2.1.u.w.frm.maxWindowSize = 8) && decide (r.2.2.1 = ⟨0, 0, r.2.2.2.cfg.gravity⟩))) = true := by decide +kernel

/-- C72: an empty backend publishes nothing; after an IMU sample and a run it publishes the time of the sample. -/
example : (exProc.run [.publishPropagate]).check (fun r => r.2.all (fun o => match o with | .state none => true | _ => false)) = true ∧
    (exProc.run (exOps 10)).check (fun r => match r.2.reverse with | .state (some s) :: .state (some s') :: _ => decide (s.ts = 2 ∧ s'.ts = 2) | _ => false) = true := by decide +kernel

/-- C74: two messages are buffered and two calls consume them. -/
example : (exProc.run [.imu (exImu 0), .feat (exMsg 3 5), .run exEnv, .run exEnv]).check (fun r => decide (buffered r.1.b.loader = 0)) = true ∧
    (exProc.run [.imu (exImu 0), .feat (exMsg 3 5), .run exEnv]).check (fun r => decide (buffered r.1.b.loader = 1)) = true := by decide +kernel

/-- C106: a backend without frames and states, whose attitude filter has taken a first sample, meets the hypotheses; the libraries exist. -/
example : ∃ (p : BProc ℝ ℝ) (ext : Ext ℝ), ext.Correct ∧ ext.ReadsMatrix ∧ GoodSolvers ([.run ⟨ext, id, id, fun _ _ => 0⟩, .publishUpdate] : List (BOp ℝ ℝ)) ∧
    p.b.u.q = { (PropQueue.init ⟨0, 0, .one⟩ : PropQueue ℝ ℝ) with Q := PropQueue.noiseMatrix 1 1 1 1, biasA := 0, biasG := 0 } ∧ p.b.u.w.frm.frames = [] ∧ p.b.status = .needInit ∧
    p.b.att.items ≠ [] ∧ (∀ i ∈ p.b.att.items, i.q.sqNorm = 1) ∧ (∀ e ∈ p.b.u.w.frm.extrinsics, e.q.sqNorm = 1) ∧ p.b.u.w.frm.extrinsics.length = 2 ∧
    (p.b.u.w.frm.extrinsics.length + (max 1 p.b.u.w.frm.maxWindowSize + 1)) * 6 < two32 := by
  have one : (Quat.one : Quat ℝ).sqNorm = 1 := by simp [Quat.one, Quat.sqNorm]
  obtain ⟨ext, hc, hm⟩ := exists_correct
  let b0 : Backend ℝ ℝ := init ⟨0, 0, .one⟩
  let b : Backend ℝ ℝ := { b0 with
    att := { b0.att with items := [⟨.one, ⟨0, 0, 10⟩, 0, 0⟩] }
    u := { b0.u with
      q := { (PropQueue.init ⟨0, 0, .one⟩ : PropQueue ℝ ℝ) with Q := PropQueue.noiseMatrix 1 1 1 1, biasA := 0, biasG := 0 }
      w := { b0.u.w with frm := { b0.u.w.frm with extrinsics := [⟨.one, 0⟩, ⟨.one, ⟨1, 0, 0⟩⟩], maxWindowSize := 8 } } } }
  refine ⟨⟨{}, ⟨0, 0, 10⟩, b⟩, ext, hc, hm, ?_, rfl, rfl, rfl, by simp [b], by simp [b, one], by simp [b, one], rfl, by decide⟩
  intro env he
  obtain rfl : env = ⟨ext, id, id, fun _ _ => 0⟩ := by simpa using he
  exact hc.good

end Backend
end Vio
