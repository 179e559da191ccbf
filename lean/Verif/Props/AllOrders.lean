/-
C113, C117 and C121 together: the order of every hash map in the program, and the ids that are hashed.
-/
import Verif.Props.Names
import Verif.Props.Cams

set_option linter.unusedSectionVars false

namespace Vio
open Spec WinSpec Update Backend

section Generic
variable {K T : Type} [Add K] [Sub K] [Mul K] [Neg K] [Div K] [Zero K] [One K] [ScalarFn K] [TimeOps T] [TimeCast T K]

theorem featMsgs_sameMaps {ops ops' : List (BOp K T)} (h : List.Forall₂ OpSameMaps ops ops') : List.Forall₂ FeatMsg.SameMaps (featMsgs ops) (featMsgs ops') := by
  induction h with
  | nil => exact .nil
  | @cons op _ _ _ ho _ ih =>
    cases ho with
    | feat m m' h => exact .cons h ih
    | other _ h =>
      cases op with
      | feat m => exact absurd rfl (h m)
      | _ => exact ih

theorem msgOk_sameMaps {nc : Nat} {m m' : FeatMsg K T} (h : m.SameMaps m') (hm : Backend.MsgOk nc m) : Backend.MsgOk nc m' := by
  refine ⟨h.ids ▸ hm.nodup, ?_, fun o' ho' => ?_⟩
  · rw [← h.ids, hm.len, h.observes.length_eq]
  · obtain ⟨hl, hg⟩ := List.forall₂_iff_get.1 h.observes
    obtain ⟨i, hi, rfl⟩ := List.getElem_of_mem ho'
    obtain ⟨o, ho, hs⟩ : ∃ o ∈ m.observes, Obs.SameMap o m'.observes[i] := ⟨m.observes[i]'(by omega), List.getElem_mem _, hg i (by omega) hi⟩
    obtain ⟨h1, h2, h3⟩ := hm.obs o ho
    refine ⟨fun e => h1 ?_, (hs.perm.map (·.1)).nodup_iff.1 h2, fun x hx => h3 x (hs.perm.mem_iff.2 hx)⟩
    have := hs.perm.length_eq
    rw [e] at this
    exact List.length_eq_zero_iff.1 this

end Generic

namespace Backend
variable {T : Type} [TimeOps T] [TimeCast T ℝ] [LinearOrder T] [TimeLaws T] [CastLaws T ℝ]

/-- C121 with C113 and C117, in terms of the tracker: `ops'` lists the cameras of the observations in any order, `xs` has other ids for the features, iterates the maps of features in any orders, and
may have other random scores and contents of memory.  The returned values are the same. -/
theorem C121_all_maps (p : BProc ℝ T) (ops ops' : List (BOp ℝ T)) (f : Nat → Nat) (xs : List (BOp ℝ T × (Win ℝ T → Win ℝ T))) (hf : Fresh p.b) (hr : Ready p.b)
    (hres : ∀ op ∈ ops, op ≠ .reset) (hm : ∀ m ∈ featMsgs ops, MsgOk p.b.u.w.frm.extrinsics.length m) (hc : Continuous ((featMsgs ops).map (·.ids))) (hn : (featMsgs ops).length + 1 < two32)
    (hids : ∀ m ∈ featMsgs ops, m.ids.length ≤ p.b.maxUsed) (hheap : ∀ r, ∀ o ∈ (p.b.u.w.feat.heap r).observes, (o.norms.map (·.1)).Nodup) (hrank : RankedRun p ops)
    (hlib : ∀ env, .run env ∈ ops → GoodExt env.ext ∧ env.ext.SvdOfColumns) (hcam : List.Forall₂ OpSameMaps ops ops')
    (hinj : ∀ a ∈ idsSent ops', ∀ b ∈ idsSent ops', f a = f b → a = b)
    (hops : List.Forall₂ (fun op x => OpSame (ScoresOnly p.b.maxUsed) op x.1 ∧ ∀ w, Win.Reordered w (x.2 w)) (withIds f ops') xs)
    (na ng nwa nwg : ℝ) (h1 : 0 ≤ na) (h2 : 0 ≤ ng) (h3 : 0 ≤ nwa) (h4 : 0 ≤ nwg) (st : Motion ℝ) (ba bg : Vec3 ℝ)
    (hq : p.b.u.q = { PropQueue.init st with Q := PropQueue.noiseMatrix na ng nwa nwg, biasA := ba, biasG := bg }) :
    outputsH p xs = outputs p ops ∧ ∃ os, outputsH p xs = .ok os := by
  have hs := featMsgs_sameMaps hcam
  have hmem : ∀ m' ∈ featMsgs ops', ∃ m ∈ featMsgs ops, m.SameMaps m' := by
    intro m' hm'
    obtain ⟨hl, hg⟩ := List.forall₂_iff_get.1 hs
    obtain ⟨i, hi, rfl⟩ := List.getElem_of_mem hm'
    exact ⟨(featMsgs ops)[i]'(by omega), List.getElem_mem _, hg i (by omega) hi⟩
  have hid : (featMsgs ops').map (·.ids) = (featMsgs ops).map (·.ids) := by
    clear hmem hm hids hc hn
    generalize featMsgs ops = l at hs
    generalize featMsgs ops' = l' at hs
    induction hs with
    | nil => rfl
    | cons h _ ih => rw [List.map_cons, List.map_cons, ih, h.ids]
  have hres' : ∀ op ∈ ops', op ≠ .reset := by
    clear hs hmem hm hids hc hn hid hrank hlib hops hinj
    induction hcam with
    | nil => intro op h; cases h
    | cons ho _ ih =>
      intro op h
      rcases List.mem_cons.1 h with rfl | h
      · cases ho with
        | feat m m' h => nofun
        | other _ h => exact hres _ List.mem_cons_self
      · exact ih (fun op h => hres op (List.mem_cons_of_mem _ h)) op h
  have hg := tracker_goodRun p ops hf hr hres hm hc hn
  have hg' := tracker_goodRun p ops' hf hr hres' (fun m' h => by obtain ⟨m, a, b⟩ := hmem m' h; exact msgOk_sameMaps b (hm m a)) (hid ▸ hc) (by rw [← hs.length_eq]; exact hn)
  obtain ⟨e1, -⟩ := C121_cameras p ops ops' hf hr hg hheap hrank hlib hcam na ng nwa nwg h1 h2 h3 h4 st ba bg hq
  obtain ⟨e2, e3⟩ := C117_any_order p ops' f hinj xs hf hr hg' (fun m' h => by obtain ⟨m, a, b⟩ := hmem m' h; rw [← b.ids]; exact hids m a) hops na ng nwa nwg h1 h2 h3 h4 st ba bg hq
  exact ⟨e2.trans e1.symm, e3⟩

/-- C121 with C113 and C117: the cameras in the other order, the ids moved, all maps reversed whenever they change, other scores and another memory. -/
example : ∃ env env' : Env ℝ, env ≠ env' ∧
    outputsH exStartProc ((withIds (fun i => 100 - i) (exCamsOps env' ⟨exRestObs.norms.reverse⟩)).map (fun op => (op, Win.reversed))) = outputs exStartProc (exCamsOps env exRestObs) := by
  obtain ⟨ext, hg, hs, -⟩ := exists_svdOfColumns
  refine ⟨⟨ext, id, id, fun _ _ => 0⟩, ⟨ext, exSwap, id, fun _ _ => 5⟩, ?_, ?_⟩
  · intro h
    have := congrFun (congrFun (congrArg Env.junk h) 0) 0
    norm_num at this
  have he : ScoresOnly exStartProc.b.maxUsed ⟨ext, id, id, fun _ _ => 0⟩ ⟨ext, exSwap, id, fun _ _ => 5⟩ :=
    ⟨rfl, hg, fun pos => keysDiffer_of_injective _ (fun _ _ h => h) pos _, fun pos => keysDiffer_of_injective _ exSwap_injective pos _⟩
  refine (C121_all_maps exStartProc _ _ (fun i => 100 - i) _ exCams_fresh exCams_ready (exCams_noReset _ _) (exCams_msg _) (exCams_continuous _) (by show 1 + 1 < two32; decide) ?_ nofun
    (exCams_ranked _) ?_ (exCams_sameMaps ⟨ext, id, id, fun _ _ => 0⟩) ?_ ?_ 1 2 3 4 (by norm_num) (by norm_num) (by norm_num) (by norm_num) ⟨0, 0, .one⟩ 0 0 rfl).1
  · intro m hm
    obtain rfl : m = exStartMsg 1 := List.mem_singleton.1 hm
    show (List.range 10).length ≤ 20
    decide
  · intro env he
    obtain rfl : env = ⟨ext, id, id, fun _ _ => 0⟩ := by simpa [exCamsOps] using he
    exact ⟨hg, hs⟩
  · show ∀ a ∈ List.range 10 ++ [], ∀ b ∈ List.range 10 ++ [], 100 - a = 100 - b → a = b
    intro a ha b hb h
    simp at ha hb
    omega
  · rw [List.forall₂_map_right_iff]
    have hw : ∀ w : Win ℝ ℝ, Win.Reordered w (Win.reversed w) := reversed_reordered
    exact .cons ⟨.imu _, hw⟩ (.cons ⟨.run _ _ he, hw⟩ (.cons ⟨.imu _, hw⟩ (.cons ⟨.feat _, hw⟩ (.cons ⟨.run _ _ he, hw⟩ (.cons ⟨.publishPropagate, hw⟩ .nil)))))

end Backend
end Vio
