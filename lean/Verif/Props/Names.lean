/-
C117: the ids of features are only names.
-/
import Verif.Lemmas.Names
import Verif.Props.Safety
import Verif.Spec.Runs
import Verif.Props.Hash

set_option linter.unusedSectionVars false

namespace Vio

open Spec Update Res Backend WinSpec

section
variable {K T : Type} [Add K] [Sub K] [Mul K] [Neg K] [Div K] [Zero K] [One K] [ScalarFn K] [TimeOps T] [TimeCast T K]

theorem step_rename (ρ : Renaming) (hρ : ρ.Injective) (p : BProc K T) (op : BOp K T) (h : p.b.u.w.feat.Made ρ) :
    (p.rename ρ).step (op.rename ρ) = (p.step op).mapOk (fun x => (x.1.rename ρ, x.2)) ∧ ∀ p' o, p.step op = .ok (p', o) → p'.b.u.w.feat.Made ρ := by
  cases op with
  | imu m =>
    constructor
    · rfl
    · intro p' o e; cases e; exact h
  | feat m =>
    obtain ⟨e1, e2⟩ := pushFeatures_rename ρ p.statics p.b.loader m
    constructor
    · simp only [BOp.rename, BProc.step, show (p.rename ρ).b.loader = p.b.loader.rename ρ from rfl, show (p.rename ρ).statics = p.statics from rfl, e1, e2]
      rfl
    · intro p' o e; cases e; exact h
  | run env =>
    obtain ⟨e1, e2⟩ := Backend.runOnce_rename ρ hρ env p.g p.b h
    constructor
    · simp only [BOp.rename, BProc.step, show (p.rename ρ).b = p.b.rename ρ from rfl, show (p.rename ρ).g = p.g from rfl, e1, bind_mapOk, mapOk_bind]
      rfl
    · intro p' o e
      simp only [BProc.step] at e
      obtain ⟨x, e3, e4⟩ := bind_eq_ok.1 e
      cases e4
      exact e2 x e3
  | runTest =>
    obtain ⟨e1, e2, e3⟩ := popOne_rename ρ p.b.loader
    constructor
    · simp only [BOp.rename, BProc.step, Backend.runOnceTest, show (p.rename ρ).b.loader = p.b.loader.rename ρ from rfl, e1, e3]
      rfl
    · intro p' o e; cases e; exact h
  | publishPropagate =>
    constructor
    · simp only [BOp.rename, BProc.step, show (p.rename ρ).b.publishPropagate = p.b.publishPropagate from rfl, mapOk_bind]
      rfl
    · intro p' o e
      simp only [BProc.step] at e
      obtain ⟨x, -, e2⟩ := bind_eq_ok.1 e
      cases e2
      exact h
  | publishUpdate =>
    constructor
    · simp only [BOp.rename, BProc.step, show (p.rename ρ).b.publishUpdate = p.b.publishUpdate from rfl, mapOk_bind]
      rfl
    · intro p' o e
      simp only [BProc.step] at e
      obtain ⟨x, -, e2⟩ := bind_eq_ok.1 e
      cases e2
      exact h
  | reset =>
    refine ⟨rfl, fun p' o e => ?_⟩
    cases e
    exact h

/-- C117: for every scalar type, every process and every history of calls, other ids in all messages (and in all that the process has stored) give the same results, and the same undefined
behaviour if there is any. -/
theorem C117_filter (ρ : Renaming) (hρ : ρ.Injective) (ops : List (BOp K T)) : ∀ p : BProc K T, p.b.u.w.feat.Made ρ →
    (p.rename ρ).run (ops.map (·.rename ρ)) = (p.run ops).mapOk (fun x => (x.1.rename ρ, x.2)) := by
  induction ops with
  | nil => intro p _; rfl
  | cons op ops ih =>
    intro p h
    obtain ⟨e1, e2⟩ := step_rename ρ hρ p op h
    simp only [List.map_cons, BProc.run, e1, bind_mapOk, mapOk_bind]
    cases e : p.step op with
    | ub t => rfl
    | ok x =>
      obtain ⟨p', o⟩ := x
      simp only [bind_ok]
      rw [ih p' (e2 p' o e), bind_mapOk]
      rfl

end

/-- A function that is injective on a finite set agrees there with one that is injective everywhere. -/
theorem exists_injective (S : List Nat) (f : Nat → Nat) (h : ∀ a ∈ S, ∀ b ∈ S, f a = f b → a = b) : ∃ g : Nat → Nat, Function.Injective g ∧ ∀ a ∈ S, g a = f a := by
  obtain ⟨M, hM⟩ : ∃ M, ∀ a ∈ S, f a < M := by
    clear h
    induction S with
    | nil => exact ⟨0, by simp⟩
    | cons a S ih =>
      obtain ⟨M, hM⟩ := ih
      refine ⟨max M (f a + 1), fun b hb => ?_⟩
      rcases List.mem_cons.1 hb with rfl | hb
      · omega
      · have := hM b hb; omega
  refine ⟨fun n => if n ∈ S then f n else n + M, fun a b e => ?_, fun a ha => if_pos ha⟩
  dsimp only at e
  split at e <;> split at e
  · rename_i ha hb; exact h a ha b hb e
  · rename_i ha hb; have := hM a ha; omega
  · rename_i ha hb; have := hM b hb; omega
  · omega

/-- The ids that a process still has: those of queued messages and those of the frames of its window. -/
def BProc.idsHeld {K T : Type} (p : BProc K T) : List Nat := p.b.loader.featMeas.flatMap (·.ids) ++ p.b.u.w.frm.frames.flatMap (fun f => f.features.map (·.1))

/-- The ids in the messages of a history. -/
def idsSent {K T : Type} (ops : List (BOp K T)) : List Nat := (featMsgs ops).flatMap (·.ids)

/-- A history with other ids. -/
def withIds {K T : Type} (f : Nat → Nat) (ops : List (BOp K T)) : List (BOp K T) := ops.map (·.rename ⟨f, fun _ => false⟩)

theorem rename_congr {K T : Type} (ρ : Renaming) (f : Nat → Nat) (ops : List (BOp K T)) (h : ∀ a ∈ idsSent ops, ρ a = f a) : ops.map (·.rename ρ) = withIds f ops := by
  induction ops with
  | nil => rfl
  | cons op ops ih =>
    have h2 : ∀ a ∈ idsSent ops, ρ a = f a := by
      intro a ha
      refine h a ?_
      cases op <;> simp only [idsSent, featMsgs, List.flatMap_cons, List.mem_append] <;> first | exact .inr ha | exact ha
    simp only [withIds, List.map_cons] at ih ⊢
    rw [ih h2]
    congr 1
    cases op with
    | feat m =>
      simp only [BOp.rename, FeatMsg.rename]
      congr 2
      exact List.map_congr_left fun a ha => h a (by simp [idsSent, featMsgs, ha])
    | _ => rfl

section
variable {K T : Type} [Add K] [Sub K] [Mul K] [Neg K] [Div K] [Zero K] [One K] [ScalarFn K] [TimeOps T] [TimeCast T K]

/-- A change of ids that keeps those of a state leaves the state as it is. -/
theorem rename_self (ρ : Renaming) (p : BProc K T) (h1 : ∀ a ∈ p.idsHeld, ρ a = a) (h2 : ∀ e ∈ p.b.u.w.feat.map, ρ e.1 = e.1)
    (h3 : ∀ r < p.b.u.w.feat.next, ρ.dead r = false → ρ (p.b.u.w.feat.heap r).id = (p.b.u.w.feat.heap r).id) : p.rename ρ = p := by
  have hids : ∀ l : List Nat, (∀ a ∈ l, ρ a = a) → l.map ρ.id = l := fun l h => (List.map_congr_left h).trans (List.map_id' l)
  have hkeys : ∀ l : List (Nat × Nat), (∀ e ∈ l, ρ e.1 = e.1) → l.map (fun e => (ρ e.1, e.2)) = l := fun l h =>
    (List.map_congr_left (f := fun e => (ρ e.1, e.2)) (g := fun e => e) fun e he => Prod.ext (h e he) rfl).trans (List.map_id' l)
  have e1 : p.b.loader.featMeas.map (·.rename ρ) = p.b.loader.featMeas := by
    refine (List.map_congr_left (g := fun m => m) fun m hm => ?_).trans (List.map_id' _)
    have := hids m.ids fun a ha => h1 a (List.mem_append_left _ (List.mem_flatMap.2 ⟨m, hm, ha⟩))
    simp only [FeatMsg.rename, this]
  have e2 : p.b.u.w.frm.frames.map (·.rename ρ) = p.b.u.w.frm.frames := by
    refine (List.map_congr_left (g := fun m => m) fun f hf => ?_).trans (List.map_id' _)
    have := hkeys f.features fun e he => h1 e.1 (List.mem_append_right _ (List.mem_flatMap.2 ⟨f, hf, List.mem_map.2 ⟨e, he, rfl⟩⟩))
    simp only [Frame.rename, this]
  have e3 : p.b.u.w.feat.rename ρ = p.b.u.w.feat := by
    have : (fun r => if r < p.b.u.w.feat.next ∧ ρ.dead r = false then (p.b.u.w.feat.heap r).rename ρ else p.b.u.w.feat.heap r) = p.b.u.w.feat.heap := by
      funext r
      split
      · rename_i h
        simp only [Feature.rename, h3 r h.1 h.2]
      · rfl
    simp only [FMgr.rename, this, hkeys _ h2]
  simp only [BProc.rename, Backend.rename, Loader.rename, Upd.rename, Win.rename, FrameMgr.rename, e1, e2, e3]

/-- What a history gives out does not depend on the ids, if the ids that the process still has stay the same. -/
theorem outputs_withIds (p : BProc K T) (ops : List (BOp K T)) (f : Nat → Nat) (hmap : ∀ e ∈ p.b.u.w.feat.map, e.2 < p.b.u.w.feat.next ∧ (p.b.u.w.feat.heap e.2).id = e.1 ∧ e.1 ∈ p.idsHeld)
    (hf : ∀ a ∈ p.idsHeld, f a = a) (hinj : ∀ a ∈ p.idsHeld ++ idsSent ops, ∀ b ∈ p.idsHeld ++ idsSent ops, f a = f b → a = b) : outputs p (withIds f ops) = outputs p ops := by
  obtain ⟨g, hg, e⟩ := exists_injective _ f hinj
  let ρ : Renaming := ⟨g, fun r => decide (r < p.b.u.w.feat.next ∧ ∀ e ∈ p.b.u.w.feat.map, e.2 ≠ r)⟩
  have hfix : ∀ a ∈ p.idsHeld, ρ a = a := fun a ha => (e a (List.mem_append_left _ ha)).trans (hf a ha)
  have hm : p.b.u.w.feat.Made ρ := by
    refine ⟨fun x hx => ⟨(hmap x hx).1, ?_⟩, fun r hr => (of_decide_eq_true hr).1⟩
    exact decide_eq_false fun h => h.2 x hx rfl
  have hs : p.rename ρ = p := by
    refine rename_self ρ p hfix (fun x hx => hfix _ (hmap x hx).2.2) fun r hr hd => ?_
    have := of_decide_eq_false hd
    simp only [not_and, not_forall, not_not] at this
    obtain ⟨x, hx, rfl⟩ := this hr
    rw [(hmap x hx).2.1]
    exact hfix _ (hmap x hx).2.2
  have := C117_filter ρ hg ops p hm
  rw [hs, rename_congr ρ f ops fun a ha => e a (List.mem_append_right _ ha)] at this
  unfold outputs
  rw [this]
  cases p.run ops <;> rfl

/-- C117 from the start of a process: only that different ids stay different matters. -/
theorem C117_from_start (p : BProc K T) (hf : Fresh p.b) (ops : List (BOp K T)) (f : Nat → Nat) (hinj : ∀ a ∈ idsSent ops, ∀ b ∈ idsSent ops, f a = f b → a = b) :
    outputs p (withIds f ops) = outputs p ops := by
  have hh : p.idsHeld = [] := by simp [BProc.idsHeld, hf.feat, hf.frames]
  refine outputs_withIds p ops f ?_ ?_ ?_
  · rw [hf.feats]; simp
  · rw [hh]; simp
  · rw [hh]; exact hinj

end

section
variable {K T : Type} [Add K] [Sub K] [Mul K] [Neg K] [Div K] [Zero K] [One K] [ScalarFn K] [TimeOps T] [TimeCast T K] [LinearOrder T] [TimeLaws T] [CastLaws T K]

theorem lookup_of_nodup {l : List (Nat × Nat)} (h : (l.map (·.1)).Nodup) {e : Nat × Nat} (he : e ∈ l) : l.lookup e.1 = some e.2 := by
  induction l with
  | nil => cases he
  | cons x l ih =>
    simp only [List.map_cons, List.nodup_cons] at h
    rcases List.mem_cons.1 he with rfl | he
    · exact List.lookup_cons_self
    · have : e.1 ≠ x.1 := fun hc => h.1 (hc ▸ List.mem_map.2 ⟨e, he, rfl⟩)
      rw [List.lookup_cons, beq_false_of_ne this]
      exact ih h.2 he

/-- In a window that follows the log of messages the feature manager has no ids but those of the frames. -/
theorem rel_held {l : Log K T} {w : Win K T} (hr : Rel l w) (e : Nat × Nat) (he : e ∈ w.feat.map) :
    e.2 < w.feat.next ∧ (w.feat.heap e.2).id = e.1 ∧ ∃ f ∈ w.frm.frames, e.1 ∈ f.features.map (·.1) := by
  have hl := lookup_of_nodup hr.wf.nodup he
  refine ⟨hr.wf.lt _ _ hl, hr.wf.ids _ _ hl, ?_⟩
  obtain ⟨hne, hlo, hhi, hrep⟩ := hr.tracks _ _ hl
  have hpos := List.length_pos_iff.2 hne
  have hi : (w.feat.heap e.2).first - l.base < l.msgs.length := by omega
  have hm := List.getElem?_eq_getElem hi
  have := hrep _ _ hm
  rw [if_pos (by omega), show l.base + ((w.feat.heap e.2).first - l.base) - (w.feat.heap e.2).first = 0 by omega, List.getElem?_eq_getElem hpos] at this
  have hi2 : (w.feat.heap e.2).first - l.base < w.frm.frames.length := by rw [hr.len]; exact hi
  exact ⟨_, List.getElem_mem hi2, (frameOf_keys hr _ _ _ (List.getElem?_eq_getElem hi2) hm e.1).2 (report_some_mem this).1⟩

/-- C117 in the middle of a run: after a history of a well-formed tracker the ids of the window and of the queue are the only ones that mean anything.  What follows gives the same results with
other ids as long as those stay and no two are taken for one another; in particular an id may be used for a new landmark as soon as no frame and no queued message has it. -/
theorem C117_reuse (p p' : BProc K T) (before after : List (BOp K T)) (outs : List (BOut K T)) (hf : Fresh p.b) (hr : Ready p.b) (hg : GoodRun p.b.u.w.frm.extrinsics.length p before)
    (h : p.run before = .ok (p', outs)) (f : Nat → Nat) (hfix : ∀ a ∈ p'.idsHeld, f a = a)
    (hinj : ∀ a ∈ p'.idsHeld ++ idsSent after, ∀ b ∈ p'.idsHeld ++ idsSent after, f a = f b → a = b) : outputs p' (withIds f after) = outputs p' after := by
  obtain ⟨q, os, e, l, hs⟩ := safe_run _ _ _ hr.fits before p _ (fresh_stable p.b hf hr) hr.period hr.half hg
  rw [h] at e
  cases e
  refine outputs_withIds p' after f (fun x hx => ?_) hfix hinj
  obtain ⟨h1, h2, fr, h3, h4⟩ := rel_held hs.rel x hx
  exact ⟨h1, h2, List.mem_append_right _ (List.mem_flatMap.2 ⟨fr, h3, h4⟩)⟩

end

/-! ### Together with the order of the hash maps -/

section
variable {K T : Type} [Add K] [Sub K] [Mul K] [Neg K] [Div K] [Zero K] [One K] [ScalarFn K] [TimeOps T] [TimeCast T K]

theorem callOk_rename (ρ : Renaming) (hρ : ρ.Injective) (nc : Nat) (p : BProc K T) (op : BOp K T) (h : CallOk nc p op) : CallOk nc (p.rename ρ) (op.rename ρ) := by
  cases op with
  | run env =>
    intro m hm
    have e : (p.rename ρ).b.loader.popOne.out.featMeas = p.b.loader.popOne.out.featMeas.map (·.rename ρ) := by
      rw [show (p.rename ρ).b.loader = p.b.loader.rename ρ from rfl, (popOne_rename ρ p.b.loader).2.1]; rfl
    rw [e, Option.map_eq_some_iff] at hm
    obtain ⟨m', hm', rfl⟩ := hm
    obtain ⟨h1, h2, h3⟩ := h m' hm'
    have hk : ∀ (f : Frame K T) (a : Nat), ρ a ∈ (f.rename ρ).features.map (·.1) ↔ a ∈ f.features.map (·.1) := by
      intro f a
      rw [show (f.rename ρ).features = f.features.map (fun e => (ρ e.1, e.2)) from rfl, List.map_map]
      simp only [List.mem_map, Function.comp_apply]
      constructor
      · rintro ⟨x, hx, e⟩; exact ⟨x, hx, hρ e⟩
      · rintro ⟨x, hx, rfl⟩; exact ⟨x, hx, rfl⟩
    refine ⟨⟨h1.nodup.map hρ, by simpa [FeatMsg.rename] using h1.len, h1.obs⟩, ?_, ?_⟩
    · intro id hid hex
      obtain ⟨a, ha, rfl⟩ := List.mem_map.1 hid
      obtain ⟨f, hf, hfa⟩ := hex
      obtain ⟨f', hf', rfl⟩ := List.mem_map.1 hf
      obtain ⟨fl, k1, k2⟩ := h2 a ha ⟨f', hf', (hk f' a).1 hfa⟩
      refine ⟨fl.rename ρ, ?_, (hk fl a).2 k2⟩
      show (p.b.u.w.frm.frames.map (·.rename ρ)).getLast? = _
      rw [List.getLast?_map, k1]
      rfl
    · intro f hf
      have hf : (p.b.u.w.frm.frames.map (·.rename ρ)).getLast? = some f := hf
      rw [List.getLast?_map, Option.map_eq_some_iff] at hf
      obtain ⟨f', hf', rfl⟩ := hf
      exact h3 f' hf'
  | _ => exact h

theorem goodRun_rename (ρ : Renaming) (hρ : ρ.Injective) (nc : Nat) (ops : List (BOp K T)) : ∀ p : BProc K T, p.b.u.w.feat.Made ρ → GoodRun nc p ops →
    GoodRun nc (p.rename ρ) (ops.map (·.rename ρ)) := by
  induction ops with
  | nil => intro p _ _; trivial
  | cons op ops ih =>
    intro p h hg
    obtain ⟨e1, e2⟩ := step_rename ρ hρ p op h
    refine ⟨callOk_rename ρ hρ nc p op hg.1, fun p' o e => ?_⟩
    rw [e1] at e
    cases hs : p.step op with
    | ub t => rw [hs] at e; cases e
    | ok x =>
      obtain ⟨q, o'⟩ := x
      rw [hs] at e
      cases e
      exact ih q (e2 q o' hs) (hg.2 q o' hs)

theorem goodRun_withIds (p : BProc K T) (hf : Fresh p.b) (nc : Nat) (ops : List (BOp K T)) (f : Nat → Nat) (hinj : ∀ a ∈ idsSent ops, ∀ b ∈ idsSent ops, f a = f b → a = b) (hg : GoodRun nc p ops) :
    GoodRun nc p (withIds f ops) := by
  obtain ⟨g, hg', e⟩ := exists_injective _ f hinj
  let ρ : Renaming := ⟨g, fun r => decide (r < p.b.u.w.feat.next)⟩
  have hm : p.b.u.w.feat.Made ρ := by
    refine ⟨?_, fun r hr => of_decide_eq_true hr⟩
    rw [hf.feats]; simp
  have hs : p.rename ρ = p := by
    refine rename_self ρ p ?_ ?_ fun r hr hd => absurd hr (of_decide_eq_false hd)
    · simp [BProc.idsHeld, hf.feat, hf.frames]
    · rw [hf.feats]; simp
  have := goodRun_rename ρ hg' nc ops p hm hg
  rwa [hs, rename_congr ρ f ops e] at this

theorem featMsgs_withIds (f : Nat → Nat) (ops : List (BOp K T)) : (featMsgs (withIds f ops)).map (·.ids.length) = (featMsgs ops).map (·.ids.length) := by
  induction ops with
  | nil => rfl
  | cons op ops ih =>
    cases op with
    | feat m => simpa [withIds, featMsgs, BOp.rename, FeatMsg.rename] using ih
    | _ => exact ih

end

namespace Backend
variable {T : Type} [TimeOps T] [TimeCast T ℝ] [LinearOrder T] [TimeLaws T] [CastLaws T ℝ]

/-- C117 for the code: other ids also mean another order of the hash maps.  The results of a well-formed tracker are the same with other ids, in whatever orders the maps are then iterated; the
random scores and the contents of memory may differ too, as in C113. -/
theorem C117_any_order (p : BProc ℝ T) (ops : List (BOp ℝ T)) (f : Nat → Nat) (hinj : ∀ a ∈ idsSent ops, ∀ b ∈ idsSent ops, f a = f b → a = b) (xs : List (BOp ℝ T × (Win ℝ T → Win ℝ T)))
    (hf : Fresh p.b) (hr : Ready p.b) (hg : GoodRun p.b.u.w.frm.extrinsics.length p ops) (hids : ∀ m ∈ featMsgs ops, m.ids.length ≤ p.b.maxUsed)
    (hops : List.Forall₂ (fun op x => OpSame (ScoresOnly p.b.maxUsed) op x.1 ∧ ∀ w, Win.Reordered w (x.2 w)) (withIds f ops) xs)
    (na ng nwa nwg : ℝ) (h1 : 0 ≤ na) (h2 : 0 ≤ ng) (h3 : 0 ≤ nwa) (h4 : 0 ≤ nwg) (st : Motion ℝ) (ba bg : Vec3 ℝ)
    (hq : p.b.u.q = { PropQueue.init st with Q := PropQueue.noiseMatrix na ng nwa nwg, biasA := ba, biasG := bg }) :
    outputsH p xs = outputs p ops ∧ ∃ os, outputsH p xs = .ok os := by
  have hids' : ∀ m ∈ featMsgs (withIds f ops), m.ids.length ≤ p.b.maxUsed := by
    intro m hm
    have : m.ids.length ∈ (featMsgs ops).map (·.ids.length) := by
      rw [← featMsgs_withIds f ops]; exact List.mem_map.2 ⟨m, hm, rfl⟩
    obtain ⟨m', hm', e⟩ := List.mem_map.1 this
    rw [← e]; exact hids m' hm'
  obtain ⟨e1, e2⟩ := C113_order p (withIds f ops) xs hf hr (goodRun_withIds p hf _ ops f hinj hg) hids' hops na ng nwa nwg h1 h2 h3 h4 st ba bg hq
  exact ⟨e1.symm.trans (C117_from_start p hf ops f hinj), e2⟩

end Backend

/-! ### Cases -/

namespace Backend

/-- C117: the ids of the example may be any ten different numbers. -/
example (f : Nat → Nat) (hf : ∀ a < 10, ∀ b < 10, f a = f b → a = b) : outputs exProc (withIds f (exOps 10)) = outputs exProc (exOps 10) := by
  have hm : ∀ a ∈ idsSent (exOps 10), a < 10 := by decide
  exact C117_from_start exProc ex_fresh (exOps 10) f fun a ha b hb => hf a (hm a ha) b (hm b hb)

/-- Two messages with different landmarks; the window keeps the second. -/
def exFirst : List (BOp ℚ ℚ) :=
  [.imu (exImu 0), .feat (exMsg 3 0), .run exEnv, .imu (exImu 1), .feat ⟨[3, 4, 5], (exMsg 3 1).observes, 1⟩, .run exEnv]

/-- C117: afterwards the ids of the first message may be used for other landmarks. -/
example : ∃ p' outs, exProc.run exFirst = .ok (p', outs) ∧ p'.idsHeld = [3, 4, 5] ∧
    ∀ after : List (BOp ℚ ℚ), (∀ a ∈ idsSent after, a < 10) → outputs p' (withIds (fun a => if a < 3 then a + 100 else a) after) = outputs p' after := by
  have hg : GoodRun 2 exProc exFirst := by
    refine tracker_goodRun exProc exFirst ex_fresh ex_ready ?_ ?_ ?_ (by decide)
    · intro op hop h; subst h; revert hop; simp [exFirst]
    · intro m hm
      have hobs : ∀ o ∈ (exMsg 3 0).observes, o.norms ≠ [] ∧ (o.norms.map (·.1)).Nodup ∧ ∀ e ∈ o.norms, e.1 < 2 := by decide
      have : m = exMsg 3 0 ∨ m = ⟨[3, 4, 5], (exMsg 3 1).observes, 1⟩ := by simpa [exFirst, featMsgs] using hm
      rcases this with rfl | rfl
      · exact ⟨by decide, rfl, hobs⟩
      · exact ⟨by decide, rfl, hobs⟩
    · intro x y z h
      have := h.length_le
      simp [exFirst, featMsgs] at this
  obtain ⟨p', outs, h⟩ := C68_no_ub_partial exProc exFirst ex_fresh ex_ready hg
  have hh : p'.idsHeld = [3, 4, 5] := by
    have : (exProc.run exFirst).check (fun r => decide (r.1.idsHeld = [3, 4, 5])) = true := by decide +kernel
    rw [h] at this
    exact of_decide_eq_true this
  refine ⟨p', outs, h, hh, fun after ha => C117_reuse exProc p' exFirst after outs ex_fresh ex_ready hg h _ ?_ ?_⟩
  · rw [hh]; decide
  · have hlt : ∀ a ∈ p'.idsHeld ++ idsSent after, a < 10 := by
      intro a h
      rcases List.mem_append.1 h with h | h
      · rw [hh] at h; clear hh; simp at h; omega
      · exact ha a h
    intro a h1 b h2 e
    have := hlt a h1
    have := hlt b h2
    split at e <;> split at e <;> omega

/-- C117: the example of C113 with its landmarks 4 and 7 under other ids, every map reversed whenever it changes. -/
example (f : Nat → Nat) (hne : f 4 ≠ f 7) : ∃ ext : Ext ℝ, GoodExt ext ∧ outputsH (⟨{}, ⟨0, 0, 10⟩, exReal⟩ : BProc ℝ ℝ)
      ((withIds f (exRealOps ⟨ext, id, id, fun _ _ => 0⟩)).map (fun op => (op, Win.reversed))) = outputs (⟨{}, ⟨0, 0, 10⟩, exReal⟩ : BProc ℝ ℝ) (exRealOps ⟨ext, id, id, fun _ _ => 0⟩) := by
  obtain ⟨ext, hext, -⟩ := exists_goodExt ⟨fun _ _ => 0, fun _ v => v, fun _ _ => ⟨0, 0⟩, fun _ _ _ => 0, fun _ _ => 0, fun _ _ _ => 0⟩
  have hobs : ∀ t, MsgOk 1 (exRealMsg t) := by
    intro t
    refine ⟨by show [4, 7].Nodup; decide, rfl, ?_⟩
    intro o ho
    have : o = ⟨[(0, ⟨1, 2⟩)]⟩ ∨ o = ⟨[(0, ⟨3, 1⟩)]⟩ := by simpa [exRealMsg] using ho
    rcases this with rfl | rfl <;> simp
  have hr : Ready exReal := by
    refine ⟨rfl, ?_, ?_, ⟨by decide, by decide, by decide⟩⟩
    · show (((0 : ℚ) : ℝ)) ≤ 1 / 10; norm_num
    · show (1 / 10 : ℝ) * ((55 / 100 : ℚ) : ℝ) ≤ 1 / 10; norm_num
  have hmem : ∀ m ∈ featMsgs (exRealOps ⟨ext, id, id, fun _ _ => 0⟩), m = exRealMsg 1 ∨ m = exRealMsg 2 := by
    intro m hm
    simpa [exRealOps, featMsgs] using hm
  have hfr : Fresh exReal := ⟨rfl, rfl, rfl, rfl, rfl, rfl, rfl⟩
  have hgood := tracker_goodRun (⟨{}, ⟨0, 0, 10⟩, exReal⟩ : BProc ℝ ℝ) (exRealOps ⟨ext, id, id, fun _ _ => 0⟩) hfr hr
    (by intro op hop h; subst h; revert hop; simp [exRealOps])
    (by intro m hm; rcases hmem m hm with rfl | rfl <;> exact hobs _)
    (by intro x y z h; have := h.length_le; simp [exRealOps, featMsgs] at this) (by show 2 + 1 < two32; decide)
  have he : ScoresOnly exReal.maxUsed ⟨ext, id, id, fun _ _ => 0⟩ ⟨ext, id, id, fun _ _ => 0⟩ :=
    ⟨rfl, hext, fun pos => keysDiffer_of_injective _ (fun _ _ h => h) pos _, fun pos => keysDiffer_of_injective _ (fun _ _ h => h) pos _⟩
  refine ⟨ext, hext, (C117_any_order (⟨{}, ⟨0, 0, 10⟩, exReal⟩ : BProc ℝ ℝ) _ f ?_ _ hfr hr hgood ?_ ?_ 1 2 3 4 (by norm_num) (by norm_num) (by norm_num) (by norm_num) ⟨0, 0, .one⟩ 0 0 rfl).1⟩
  · have h47 : ∀ a ∈ idsSent (exRealOps ⟨ext, id, id, fun _ _ => 0⟩), a = 4 ∨ a = 7 := by
      intro a ha
      obtain ⟨m, hm, ha⟩ := List.mem_flatMap.1 ha
      rcases hmem m hm with rfl | rfl <;> simpa [exRealMsg] using ha
    intro a ha b hb e
    rcases h47 a ha with rfl | rfl <;> rcases h47 b hb with rfl | rfl
    · rfl
    · exact absurd e hne
    · exact absurd e.symm hne
    · rfl
  · intro m hm
    rcases hmem m hm with rfl | rfl
    · show 2 ≤ 20; omega
    · show 2 ≤ 20; omega
  · rw [List.forall₂_map_right_iff]
    have hw : ∀ w : Win ℝ ℝ, Win.Reordered w (Win.reversed w) := reversed_reordered
    exact .cons ⟨.imu _, hw⟩ (.cons ⟨.run _ _ he, hw⟩ (.cons ⟨.feat _, hw⟩ (.cons ⟨.run _ _ he, hw⟩ (.cons ⟨.imu _, hw⟩ (.cons ⟨.feat _, hw⟩ (.cons ⟨.run _ _ he, hw⟩
      (.cons ⟨.publishUpdate, hw⟩ .nil)))))))

/-- C117 needs different ids to stay different: with two of the ten landmarks under one id the backend does not initialise. -/
theorem C117_collision : (exProc.run (exOps 10)).check (fun r => decide (r.1.b.status = .initialized)) = true ∧
    (exProc.run (withIds (· % 9) (exOps 10))).check (fun r => decide (r.1.b.status = .needInit)) = true := by
  decide +kernel

end Backend
end Vio
