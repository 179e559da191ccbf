/-
C113: the order in which the hash maps are iterated does not matter, as long as every triangulated feature of the newest frame may be used.
-/
import Verif.Lemmas.Hash

set_option linter.unusedSectionVars false

namespace Vio
open Spec WinSpec Update Res DMat

section Generic
variable {K T : Type} [Add K] [Sub K] [Mul K] [Neg K] [Div K] [Zero K] [One K] [ScalarFn K] [TimeOps T] [TimeCast T K]

namespace Backend

theorem shrinkH_id (n : Nat) : ∀ w : Win K T, shrinkH id n w = shrink n w := by
  induction n with
  | zero => intro w; rfl
  | succ n ih =>
    intro w
    rw [shrinkH, shrink]
    simp only [id_eq, ih]

theorem shrunkH_id (b : Backend K T) : b.shrunkH id = b.shrunk := by
  unfold shrunkH shrunk
  rw [shrinkH_id]

theorem tryInitH_id (env : Env K) (g : Vec3 K) (b : Backend K T) : b.tryInitH id env g = b.tryInit env g := by
  unfold tryInitH tryInit
  cases b.status with
  | needInit => simp only [shrunkH_id]
  | initialized => rfl

theorem tryUpdateH_id (env : Env K) (g : Vec3 K) (b : Backend K T) (ts : T) : b.tryUpdateH id env g ts = b.tryUpdate env g ts := by
  unfold tryUpdateH tryUpdate
  cases b.status with
  | needInit => rfl
  | initialized => simp only [shrunkH_id, id_eq]

theorem runOnceH_id (env : Env K) (g : Vec3 K) (b : Backend K T) : b.runOnceH id env g = b.runOnce env g := by
  unfold runOnceH runOnce onFeatH onFeat
  simp only [tryInitH_id, tryUpdateH_id, id_eq]
  cases b.loader.popOne.out.featMeas <;> rfl

end Backend

/-- With reorderings that do nothing the model with reorderings is the model. -/
theorem runH_id (ops : List (BOp K T)) : ∀ p : BProc K T, p.runH (ops.map (fun op => (op, id))) = p.run ops := by
  induction ops with
  | nil => intro p; rfl
  | cons op ops ih =>
    intro p
    rw [List.map_cons, BProc.runH, BProc.run]
    have hs : p.stepH id op = p.step op := by
      cases op with
      | run env => rw [BProc.stepH, BProc.step, Backend.runOnceH_id]
      | _ => rfl
    simp only [hs, ih]

/-- What the calls return, with reorderings. -/
def outputsH (p : BProc K T) (ops : List (BOp K T × (Win K T → Win K T))) : Res (List (BOut K T)) :=
  match p.runH ops with
  | .ok r => .ok r.2
  | .ub t => .ub t

/-- A reordering that reverses every map. -/
def Win.reversed (w : Win K T) : Win K T :=
  ⟨{ w.feat with map := w.feat.map.reverse }, { w.frm with frames := w.frm.frames.map (fun f => { f with features := f.features.reverse }) }⟩

theorem reversed_reordered (w : Win K T) : w.Reordered w.reversed := by
  refine ⟨⟨rfl, rfl, (List.reverse_perm _).symm⟩, ⟨?_, rfl, rfl, rfl, rfl, rfl, rfl⟩⟩
  show List.Forall₂ Frame.Reordered w.frm.frames (w.frm.frames.map _)
  rw [List.forall₂_map_right_iff, List.forall₂_same]
  intro f _
  exact ⟨rfl, (List.reverse_perm _).symm, rfl, rfl, rfl, rfl, rfl⟩

end Generic

namespace Backend

section Real
variable {T : Type} [TimeOps T] [TimeCast T ℝ] [LinearOrder T] [TimeLaws T] [CastLaws T ℝ]

/-- C113: a history of a well-formed tracker returns the same values whatever the order in which the maps of the feature manager and of the frames are iterated.  The order may be another one
after every change of a map and may depend on the whole window; the random scores and the contents of memory may differ too.  No message has more features than may be used, and the scores
differ. -/
theorem C113_order (p : BProc ℝ T) (ops : List (BOp ℝ T)) (xs : List (BOp ℝ T × (Win ℝ T → Win ℝ T))) (hf : Fresh p.b) (hr : Ready p.b) (hg : GoodRun p.b.u.w.frm.extrinsics.length p ops)
    (hids : ∀ m ∈ featMsgs ops, m.ids.length ≤ p.b.maxUsed)
    (hops : List.Forall₂ (fun op x => OpSame (ScoresOnly p.b.maxUsed) op x.1 ∧ ∀ w, Win.Reordered w (x.2 w)) ops xs)
    (na ng nwa nwg : ℝ) (h1 : 0 ≤ na) (h2 : 0 ≤ ng) (h3 : 0 ≤ nwa) (h4 : 0 ≤ nwg) (st : Motion ℝ) (ba bg : Vec3 ℝ)
    (hq : p.b.u.q = { PropQueue.init st with Q := PropQueue.noiseMatrix na ng nwa nwg, biasA := ba, biasG := bg }) :
    outputs p ops = outputsH p xs ∧ ∃ os, outputsH p xs = .ok os := by
  have hsolv : GoodSolvers ops := by
    intro env hm
    clear hids hg
    induction hops with
    | nil => cases hm
    | cons ho _ ih =>
      rcases List.mem_cons.1 hm with rfl | hm
      · obtain ⟨ho, -⟩ := ho
        generalize Prod.fst _ = y at ho
        cases ho with
        | run _ _ he => exact he.2.1
      · exact ih hm
  have hqs : QSame p.b.u.q p.b.u.q := by
    rw [hq]
    exact QSame.self _ rfl rfl rfl (by intro i hi; cases hi)
  have hp : PHash p p := ⟨rfl, rfl, rfl, ⟨hqs, .refl _, rfl, Agree.refl _, rfl⟩, rfl, rfl, rfl, rfl, rfl, rfl⟩
  have hinv : OrderInv p.b.u.w.frm.extrinsics.length p.b.u.w.frm.maxWindowSize p.b.maxUsed p ops :=
    ⟨⟨⟨_, fresh_stable p.b hf hr⟩, hr.period, hr.half, hg, covOk_start p.b na ng nwa nwg h1 h2 h3 h4 st ba bg hq hf.frames hf.status, hsolv⟩, by rw [hf.feat]; simp, hids⟩
  obtain ⟨p', outs, h⟩ := C68_no_ub_partial p ops hf hr hg
  obtain ⟨⟨p2, outs2⟩, k1, -, k2⟩ := run_hash hr.fits hops p p hp hinv _ h
  dsimp only at k2
  subst k2
  unfold outputs outputsH
  rw [h, k1]
  exact ⟨rfl, _, rfl⟩

end Real

/-! ### Concrete cases -/

/-- C113: the example history over the reals, where every map is reversed whenever it changes. -/
example : ∃ ext : Ext ℝ, GoodExt ext ∧ outputs (⟨{}, ⟨0, 0, 10⟩, exReal⟩ : BProc ℝ ℝ) (exRealOps ⟨ext, id, id, fun _ _ => 0⟩) =
    outputsH (⟨{}, ⟨0, 0, 10⟩, exReal⟩ : BProc ℝ ℝ) ((exRealOps ⟨ext, exSwap, id, fun _ _ => 5⟩).map (fun op => (op, Win.reversed))) := by
  obtain ⟨ext, hext, -⟩ := exists_goodExt ⟨fun _ _ => 0, fun _ v => v, fun _ _ => ⟨0, 0⟩, fun _ _ _ => 0, fun _ _ => 0, fun _ _ _ => 0⟩
  have hobs : ∀ t, MsgOk 1 (exRealMsg t) := by
    intro t
    refine ⟨by show [4, 7].Nodup; decide, rfl, ?_⟩
    intro o ho
    have : o = ⟨[(0, ⟨1, 2⟩)]⟩ ∨ o = ⟨[(0, ⟨3, 1⟩)]⟩ := by simpa [exRealMsg] using ho
    rcases this with rfl | rfl <;> simp
  have hr : Ready exReal := by
    refine ⟨rfl, ?_, ?_, ⟨by decide, by decide, by decide⟩⟩
    · show (((0 : ℚ) : ℝ)) ≤ 1 / 10; norm_num
    · show (1 / 10 : ℝ) * ((55 / 100 : ℚ) : ℝ) ≤ 1 / 10; norm_num
  have hmem : ∀ m ∈ featMsgs (exRealOps ⟨ext, id, id, fun _ _ => 0⟩), m = exRealMsg 1 ∨ m = exRealMsg 2 := by
    intro m hm
    simpa [exRealOps, featMsgs] using hm
  have hf : Fresh exReal := ⟨rfl, rfl, rfl, rfl, rfl, rfl, rfl⟩
  have hgood := tracker_goodRun (⟨{}, ⟨0, 0, 10⟩, exReal⟩ : BProc ℝ ℝ) (exRealOps ⟨ext, id, id, fun _ _ => 0⟩) hf hr
    (by intro op hop h; subst h; revert hop; simp [exRealOps])
    (by intro m hm; rcases hmem m hm with rfl | rfl <;> exact hobs _)
    (by intro x y z h; have := h.length_le; simp [exRealOps, featMsgs] at this) (by show 2 + 1 < two32; decide)
  have he : ScoresOnly exReal.maxUsed ⟨ext, id, id, fun _ _ => 0⟩ ⟨ext, exSwap, id, fun _ _ => 5⟩ :=
    ⟨rfl, hext, fun pos => keysDiffer_of_injective _ (fun _ _ h => h) pos _, fun pos => keysDiffer_of_injective _ exSwap_injective pos _⟩
  refine ⟨ext, hext, (C113_order (⟨{}, ⟨0, 0, 10⟩, exReal⟩ : BProc ℝ ℝ) _ _ hf hr hgood ?_ ?_ 1 2 3 4 (by norm_num) (by norm_num) (by norm_num) (by norm_num) ⟨0, 0, .one⟩ 0 0 rfl).1⟩
  · intro m hm
    rcases hmem m hm with rfl | rfl
    · show 2 ≤ 20; omega
    · show 2 ≤ 20; omega
  · rw [List.forall₂_map_right_iff]
    have hw : ∀ w : Win ℝ ℝ, Win.Reordered w (Win.reversed w) := reversed_reordered
    exact .cons ⟨.imu _, hw⟩ (.cons ⟨.run _ _ he, hw⟩ (.cons ⟨.feat _, hw⟩ (.cons ⟨.run _ _ he, hw⟩ (.cons ⟨.imu _, hw⟩ (.cons ⟨.feat _, hw⟩ (.cons ⟨.run _ _ he, hw⟩
      (.cons ⟨.publishUpdate, hw⟩ .nil)))))))

/-- The example process, whose updates use at most three features. -/
def exFew : BProc ℚ ℚ := { exProc with b := { exProc.b with maxUsed := 3 } }

/-- C113 needs enough room for the features: where more are triangulated than may be used, the order of the map of the newest frame decides which of them are. -/
theorem C113_limit : (exFew.run (exOps 10)).check (fun r => decide (r.1.b.u.features = [0, 1, 2])) = true ∧
    (exFew.runH ((exOps 10).map (fun op => (op, Win.reversed)))).check (fun r => decide (r.1.b.u.features = [9, 8, 7])) = true := by
  decide +kernel

end Backend
end Vio
