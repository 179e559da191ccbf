/-
Values that no other property reads: the parameters of a run without configuration files (C66) and the sum of the parallaxes that the keyframe decision computes and does not use (C23).
-/
import Verif.Props.Config
import Verif.Props.Window

set_option linter.unusedSectionVars false

namespace Vio

variable {K T : Type} [Add K] [Sub K] [Mul K] [Neg K] [Div K] [Zero K] [One K] [ScalarFn K] [TimeOps T] [TimeCast T K]

/-- C66: without any configuration file, reading succeeds and every parameter has the value written in config.hpp, and there is no camera. -/
theorem Conf.C66_defaults (lib : ConfLib K) (path : String) (fuel : Nat) (hf : 0 < fuel) (m : DMat K) :
    ∃ c m', readConfig lib (fun _ => none) path fuel ⟨.default, m⟩ = .ok (some (true, ⟨c, m'⟩)) ∧
      c.period = lit (5/1000) ∧ c.sigmaA = lit (19/1000) ∧ c.sigmaG = lit (15/1000) ∧ c.sigmaWA = lit (1/1000) ∧ c.sigmaWG = lit (1/10000) ∧ c.biasA = 0 ∧ c.biasG = 0 ∧ c.gravity = lit (98/10) ∧
      c.maxFrameNum = 6 ∧ c.sigmaVision = lit (21739/10000000) ∧ c.minTracked = 25 ∧ c.minParallax = lit (2/10) ∧ c.maxTranslation = lit (1/10) ∧ c.maxFeatures = 30 ∧ c.maxCameraNum = 0 ∧
      c.pbc = [] ∧ c.qbc = [] := by
  obtain ⟨c, m', h, h1, h2, h3, h4, h5, h6, h7, h8, h9, h10, h11, h12, h13, h14, h15, h16, h17⟩ :=
    C66_read lib (fun _ => none) path ⟨.default, m⟩ 0 fuel none none none none none none none (fun _ _ _ => 0) rfl rfl rfl rfl rfl rfl rfl (fun i hi => absurd hi (Nat.not_lt_zero i)) rfl (by decide) hf
      (fun v hv => by cases hv) (fun v hv => by cases hv)
  exact ⟨c, m', h, h1, h2, h3, h4, h5, h6, h7, h8, h9, h10, h11, h12, h13, h14, h15, h16, h17⟩

/-- C23: the number that the keyframe decision computes and ignores is the parallax of the README: the sum, over the features that both frames observe in their first camera, of the distance between the two
observations. -/
theorem C23_parallax_sum (s : FMgr K) (f a : Frame K T) : (FrameMgr.trackStats s f a).2 =
    (f.features.filterMap (fun e => (a.features.lookup e.1).bind (fun pr => ((s.heap e.2).getNorm f.id 0).bind (fun n => ((s.heap pr).getNorm a.id 0).map (fun n' => (n - n').norm))))).foldl (· + ·) 0 := by
  have key : ∀ (L : List (Nat × Nat)) (k : Nat) (z : K), (L.foldl (FrameMgr.trackStep s f a) (k, z)).2 =
      (L.filterMap (fun e => (a.features.lookup e.1).bind (fun pr => ((s.heap e.2).getNorm f.id 0).bind (fun n => ((s.heap pr).getNorm a.id 0).map (fun n' => (n - n').norm))))).foldl (· + ·) z := by
    intro L
    induction L with
    | nil => intro k z; rfl
    | cons e L ih =>
      intro k z
      rw [List.foldl_cons, List.filterMap_cons]
      rw [FrameMgr.trackStep]
      cases h1 : a.features.lookup e.1 with
      | none => exact ih k z
      | some pr =>
        cases h2 : (s.heap e.2).getNorm f.id 0 with
        | none => simpa only [Option.bind_some, h2, Option.bind_none] using ih k z
        | some n =>
          cases h3 : (s.heap pr).getNorm a.id 0 with
          | none => simpa only [Option.bind_some, h2, h3, Option.map_none] using ih k z
          | some n' => simpa only [Option.bind_some, h2, h3, Option.map_some, List.foldl_cons] using ih _ _
  exact key f.features 0 0

/-- Two frames with one common feature, seen at (0, 0) and at (3, 4): the sum is its parallax, plus nothing for the feature that only the newer frame has. -/
example : (FrameMgr.trackStats (K := ℚ) (T := ℚ) ⟨fun _ => ⟨7, 1, [⟨[(0, ⟨0, 0⟩)]⟩, ⟨[(0, ⟨3, 4⟩)]⟩], 2, 0, .unsolved⟩, 2, [(7, 0), (8, 1)]⟩ ⟨1, [(7, 0), (8, 1)], .one, 0, 0, 2, 0⟩ ⟨0, [(7, 0)], .one, 0, 0, 1, 0⟩) =
    (1, (⟨3, 4⟩ : Vec2 ℚ).norm) := by
  decide +kernel

end Vio
