/-
C86: the contents of uninitialised memory have no effect on any output.

`conservativeResize` leaves new entries of a matrix uninitialised (multi_view_vision_update.cpp:214, 371, 424-444); the environment of every call of `RunOnce` supplies
their contents.
-/
import Verif.Lemmas.AgreeRun
import Verif.Props.Restart

set_option linter.unusedSectionVars false

namespace Vio
open Spec WinSpec Update Res DMat

variable {K T : Type} [Add K] [Sub K] [Mul K] [Neg K] [Div K] [Zero K] [One K] [ScalarFn K]
  [TimeOps T] [TimeCast T K]

theorem Res.Both.outputs {p p' : BProc K T} {ops ops' : List (BOp K T)} {R : BProc K T → BProc K T → Prop}
    (h : Both (fun x y => R x.1 y.1 ∧ x.2 = y.2) (p.run ops) (p'.run ops')) : Vio.outputs p ops = Vio.outputs p' ops' := by
  unfold Vio.outputs
  cases h1 : p.run ops <;> cases h2 : p'.run ops' <;> rw [h1, h2] at h
  · exact congrArg _ h.2
  · exact absurd h (by simp [Both])
  · exact absurd h (by simp [Both])
  · exact congrArg _ h

namespace Update

theorem invEig_same (ext : Ext K) (hl : ext.EigReadsMatrix) {a a' : DMat K} (h : Agree a a') : Agree (invEig ext a) (invEig ext a') := by
  obtain ⟨h1, h2⟩ := hl a a' h.rows h.cols h.at'
  unfold invEig
  rw [h1, h2]
  refine ⟨h.rows, h.rows, fun i j _ _ => ?_⟩
  show sumTo a.rows _ = sumTo a'.rows _
  rw [h.rows]

theorem kalman_same (ext : Ext K) (hl : ext.EigReadsMatrix) (noise : K) {P P' hxr hxr' : DMat K} (hP : Agree P P') (hx : Agree hxr hxr') :
    Both (fun k k' => Agree k.dx k'.dx ∧ Agree k.cov k'.cov) (kalman ext noise P hxr) (kalman ext noise P' hxr') := by
  unfold kalman
  rw [← hx.rows, ← hx.cols]
  refine (hx.block 0 0 hxr.rows (hxr.cols - 1)).bind (fun H H' _ _ hH => ?_)
  refine (hx.block 0 (hxr.cols - 1) hxr.rows 1).bind (fun r r' _ _ hr => ?_)
  refine (hP.mul hH.transpose).bind (fun A A' _ _ hA => ?_)
  refine (hH.mul hA).bind (fun S S' _ _ hS => ?_)
  refine (hA.mul (invEig_same ext hl (hS.addDiag _))).bind (fun G G' _ _ hG => ?_)
  refine (hG.mul hr).bind (fun d d' _ _ hd => ?_)
  refine (hG.neg.mul hH).bind (fun I I' _ _ hI => ?_)
  refine ((hI.addDiag 1).mul hP).bind (fun C C' _ _ hC => ?_)
  refine (hC.add hC.transpose).bind (fun s s' _ _ hs => ?_)
  exact ⟨hd, hs.smul _⟩

theorem measure_junk (env : Env K) (junk : Nat → Nat → K) (w : Win K T) (fs : List Nat) :
    Both (fun x y => match x, y with | none, none => True | some a, some b => Agree a b | _, _ => False) (measure env w fs) (measure { env with junk := junk } w fs) := by
  unfold measure
  refine (Both.refl (R := Eq) (fun _ => rfl) _).bind (fun a _ _ _ e => ?_); subst e
  cases a with
  | none => trivial
  | some a =>
    have : Both Agree (compress env a) (compress { env with junk := junk } a) := by
      unfold compress
      split
      · refine (Both.refl (R := Eq) (fun _ => rfl) _).bind (fun h _ _ _ e => ?_); subst e
        exact (Agree.refl _).resize _ _ _ _ (show a.cols - 1 ≤ a.rows by omega) (show a.cols ≤ a.cols by omega)
      · exact Agree.refl _
    dsimp only
    exact this.bind (fun b b' _ _ hb => hb)

/-- The Kalman step does not read uninitialised memory. -/
theorem solve_junk (env env' : Env K) (h : MemoryOnly env env') (noise : K) {P P' : DMat K} (hP : Agree P P') (w : Win K T) (fs : List Nat) :
    Both KSame (solve env noise P w fs) (solve env' noise P' w fs) := by
  obtain ⟨⟨junk, rfl⟩, hl⟩ := h
  unfold solve
  refine (measure_junk env junk w fs).bind (fun a b _ _ e => ?_)
  cases a with
  | none =>
    cases b with
    | none => trivial
    | some b => exact absurd e (by simp)
  | some a =>
    cases b with
    | none => exact absurd e (by simp)
    | some b =>
      dsimp only at e ⊢
      exact (kalman_same env.ext hl noise hP e).bind (fun k k' _ _ hk => hk)

theorem selectLoop_junk (env : Env K) (junk : Nat → Nat → K) (l : List (Nat × Nat)) : ∀ (w : Win K T) (good : List (Nat × Nat)) (pos : Nat),
    selectLoop env w good pos l = selectLoop { env with junk := junk } w good pos l := by
  induction l with
  | nil => intro w good pos; rfl
  | cons e l ih =>
    intro w good pos
    rw [selectLoop, selectLoop]
    simp only [ih]

/-- The whole update does not depend on uninitialised memory. -/
theorem update_junk (env env' : Env K) (h : MemoryOnly env env') (noise : K) (maxUsed : Nat) (g : Vec3 K) {u u' : Upd K T} (ts thr : T) (hu : USame u u')
    (hf : 1 ≤ u.w.frm.frames.length) (hN : (u.w.frm.extrinsics.length + u.w.frm.frames.length) * 6 < two32) :
    Both (fun x y => x.1 = y.1 ∧ USame x.2 y.2) (update env noise maxUsed g u ts thr) (update env' noise maxUsed g u' ts thr) := by
  refine update_same env env' noise maxUsed g ts thr hu hf hN Eq (fun a b e => by rw [e]) (fun m _ => ?_) (fun m c c' w fs fs' pos _ _ hc _ e _ => ?_)
  · obtain ⟨⟨junk, rfl⟩, -⟩ := h
    have : selectGood env maxUsed { u.w with frm := m } u.pos = selectGood { env with junk := junk } maxUsed { u.w with frm := m } u.pos := by
      unfold selectGood
      simp only [selectLoop_junk env junk]
    rw [← this]
    exact Both.refl (fun _ => ⟨rfl, rfl, rfl⟩) _
  · subst e
    exact solve_junk env env' h noise hc w fs

theorem update_ext_length (env : Env K) (noise : K) (maxUsed : Nat) (g : Vec3 K) (u u' : Upd K T) (ts thr : T) (good : Bool)
    (h : update env noise maxUsed g u ts thr = .ok (good, u')) : u'.w.frm.extrinsics.length = u.w.frm.extrinsics.length := by
  cases good with
  | true => exact (update_dims _ _ _ _ _ _ _ _ h).1
  | false =>
    rw [update_eq] at h
    split at h
    · cases h; rfl
    obtain ⟨policy, hp, h⟩ := Res.bind_eq_ok.1 h
    obtain ⟨c, hc, h⟩ := Res.bind_eq_ok.1 h
    split at h
    · cases h; rfl
    obtain ⟨⟨good', m⟩, hn, h⟩ := Res.bind_eq_ok.1 h
    dsimp only at h
    obtain ⟨n1, n2⟩ := updateNewest_length _ _ _ _ hn
    split at h
    · cases h; dsimp only; rw [n1]
    obtain ⟨⟨w, fs, pos⟩, hs, h⟩ := Res.bind_eq_ok.1 h
    dsimp only at h hs
    have hw : w.frm = m := by
      unfold selectGood at hs
      obtain ⟨f, _, hs⟩ := Res.bind_eq_ok.1 hs
      obtain ⟨⟨w1, good1, pos1⟩, hl, hs⟩ := Res.bind_eq_ok.1 hs
      cases hs
      exact selectLoop_frm env _ _ _ _ _ _ _ hl
    unfold afterSelect at h
    split at h
    · exact absurd (finish_any _ _ _ _ _ h).2.2.2 (by decide)
    · obtain ⟨k, hk, h⟩ := Res.bind_eq_ok.1 h
      split at h
      · cases h; dsimp only; rw [hw, n1]
      · obtain ⟨u1, hu, h⟩ := Res.bind_eq_ok.1 h
        exact absurd (finish_any _ _ _ _ _ h).2.2.2 (by decide)

end Update

namespace Backend

theorem tryInit_ext (env : Env K) (g : Vec3 K) (b b' : Backend K T) (h : b.tryInit env g = .ok b') : b'.u.w.frm.extrinsics = b.u.w.frm.extrinsics := by
  unfold tryInit at h
  split at h
  · obtain ⟨⟨good, b1⟩, h1, h⟩ := Res.bind_eq_ok.1 h
    obtain ⟨i1, -, -⟩ := initialise_queue _ _ _ _ _ h1
    dsimp only at h
    split at h
    · cases h; exact i1
    · obtain ⟨w, e, hs⟩ := shrunk_keep _ _ h
      rw [e]
      exact (shrink_ext _ _ _ hs).trans i1
  · cases h; rfl

theorem tryUpdate_ext (env : Env K) (g : Vec3 K) (b b' : Backend K T) (ts : T) (h : b.tryUpdate env g ts = .ok b') : b'.u.w.frm.extrinsics.length = b.u.w.frm.extrinsics.length := by
  unfold tryUpdate at h
  split at h
  · cases h; rfl
  · split at h
    · obtain ⟨⟨good, u⟩, hu, h⟩ := Res.bind_eq_ok.1 h
      have hcam := update_ext_length _ _ _ _ _ _ _ _ _ hu
      dsimp only at h
      split at h
      · obtain ⟨w, hw, h⟩ := Res.bind_eq_ok.1 h
        cases h
        show w.frm.extrinsics.length = _
        rw [(marginalize_keep _ _ _ hw).1, hcam]
      · obtain ⟨w, e, hs⟩ := shrunk_keep _ _ h
        rw [e]
        exact (congrArg _ (shrink_ext _ _ _ hs)).trans hcam
    · cases h

theorem onFeat_ext (env : Env K) (g : Vec3 K) (b b' : Backend K T) (m : FeatMsg K T) (h : b.onFeat env g m = .ok b') : b'.u.w.frm.extrinsics.length = b.u.w.frm.extrinsics.length := by
  obtain ⟨b1, b2, h1, h2, h3⟩ := onFeat_eq env g b b' m h
  obtain ⟨att, e⟩ := cleanAtt_keep _ _ h3
  rw [e]
  show b2.u.w.frm.extrinsics.length = _
  rw [tryUpdate_ext _ _ _ _ _ h2, tryInit_ext _ _ _ _ h1]
  rfl

end Backend

open Backend

/-- No call changes the number of cameras. -/
theorem step_ext (p p' : BProc K T) (op : BOp K T) (o : BOut K T) (h : p.step op = .ok (p', o)) : p'.b.u.w.frm.extrinsics.length = p.b.u.w.frm.extrinsics.length := by
  cases op with
  | run env =>
    obtain ⟨⟨r, b'⟩, hb', hs⟩ := Res.bind_eq_ok.1 h
    cases hs
    rcases runOnce_eq env p.g p.b b' r hb' with ⟨-, -, rfl⟩ | ⟨-, res, b1, h1, h2⟩
    · rfl
    · have k : b1.u.w = p.b.u.w := (onImu_keep _ _ _ _ _ h1).2.2.1
      rcases h2 with ⟨-, -, rfl⟩ | ⟨m, -, -, h2⟩
      · show b'.u.w.frm.extrinsics.length = _; rw [k]
      · show b'.u.w.frm.extrinsics.length = _; rw [onFeat_ext _ _ _ _ _ h2, k]
  | imu m => cases h; rfl
  | feat m => cases h; rfl
  | runTest => cases h; rfl
  | publishPropagate =>
    obtain ⟨_, _, hs⟩ := Res.bind_eq_ok.1 h
    cases hs; rfl
  | publishUpdate =>
    obtain ⟨_, _, hs⟩ := Res.bind_eq_ok.1 h
    cases hs; rfl
  | reset => cases h; rfl

theorem QSame.self (s : PropQueue K T) (h1 : s.F.rows = imuStateSize) (h2 : s.F.cols = imuStateSize) (h3 : s.G.rows = imuStateSize) (hi : ∀ i ∈ s.items, ItemSame i i) : QSame s s :=
  ⟨List.forall₂_same.2 hi, Agree.refl _, rfl, rfl, rfl, rfl, rfl, rfl, h1, h2, h3⟩

/-- C86: two histories of the same calls that differ only in the contents of uninitialised memory return the same values, and one is undefined behaviour exactly when the
other is. -/
theorem C86_memory (N : Nat) (p : BProc K T) (hN : (p.b.u.w.frm.extrinsics.length + (max 1 N + 1)) * 6 < two32) (hb : Bounded N p.b) (hi : p.b.u.q.items = [])
    (hF : p.b.u.q.F.rows = 15 ∧ p.b.u.q.F.cols = 15 ∧ p.b.u.q.G.rows = 15) (ops ops' : List (BOp K T)) (hops : List.Forall₂ (OpSame MemoryOnly) ops ops') :
    outputs p ops = outputs p ops' := by
  have hq : QSame p.b.u.q p.b.u.q := QSame.self _ hF.1 hF.2.1 hF.2.2 (by rw [hi]; simp)
  have hp : PSame p p := ⟨rfl, rfl, rfl, ⟨hq, rfl, rfl, Agree.refl _, rfl⟩, rfl, rfl, rfl, rfl, rfl, rfl⟩
  refine (run_same MemoryOnly (fun env env' h => by obtain ⟨⟨junk, rfl⟩, -⟩ := h; exact ⟨rfl, rfl⟩)
    (fun q _ => Bounded N q.b ∧ q.b.u.w.frm.extrinsics.length = p.b.u.w.frm.extrinsics.length) ?_ ?_ hops p p hp ⟨hb, rfl⟩).outputs (R := PSame)
  · intro q op ops1 q1 o hq hs
    exact ⟨C70_bound N (by omega) [op] q q1 [o] hq.1 (by rw [BProc.run, hs]; rfl), (step_ext _ _ _ _ hs).trans hq.2⟩
  · intro q env env' ops1 hq he res b1 b2 b2' m h1 _ h2 hs _
    have k : b1.u.w = q.b.u.w := (onImu_keep _ _ _ _ _ h1).2.2.1
    obtain ⟨e1, e2⟩ := insert_length b1.u.w m
    obtain ⟨t1, t2, -⟩ := tryInit_any _ _ _ _ h2 (by show 1 ≤ (b1.u.w.insert m).frm.frames.length; omega)
    have t3 := tryInit_ext _ _ _ _ h2
    have t1' : b2.u.w.frm.frames.length ≤ (b1.u.w.insert m).frm.frames.length := t1
    have t3' : b2.u.w.frm.extrinsics = b1.u.w.frm.extrinsics := t3
    have := hq.1.2
    have hq2 := hq.2
    refine update_junk env env' he _ _ _ _ _ hs.u t2 ?_
    rw [t3', k, hq2]
    rw [k] at e1 t1'
    omega

/-- C86 applies to the example history with two different contents of memory; the second `RunOnce` initialises the backend and updates, so the matrices are resized. -/
def exJunk : Env ℚ := { exEnv with junk := fun i j => 7 + i + j }

def exJunkOps : List (BOp ℚ ℚ) :=
  [.imu (exImu 0), .feat (exMsg 10 0), .run exEnv, .imu (exImu 1), .feat (exMsg 10 1), .run exJunk, .publishPropagate, .publishUpdate]

example : outputs exProc (exOps 10) = outputs exProc exJunkOps := by
  have h : exEnv.ext.EigReadsMatrix := fun _ _ _ _ _ => ⟨rfl, rfl⟩
  refine C86_memory 2 exProc (by decide) (show _ ∧ _ by decide) rfl ⟨rfl, rfl, rfl⟩ _ _ ?_
  exact .cons (.imu _) (.cons (.feat _) (.cons (.run _ _ ⟨⟨_, rfl⟩, h⟩) (.cons (.imu _) (.cons (.feat _) (.cons (.run _ _ ⟨⟨_, rfl⟩, h⟩) (.cons .publishPropagate (.cons .publishUpdate .nil)))))))

example : (exProc.run exJunkOps).check (fun r => decide (r.1.b.status = .initialized) && decide (r.1.b.u.cov.rows = 15 + 4 * 6)) = true := by decide +kernel

end Vio
