/-
Two filters side by side whose covariances differ by a shift of the world, and the proof that every step keeps them so.
-/
import Verif.Spec.Offset
import Verif.Props.OrderRun
import Verif.Props.Gauge
import Verif.Props.Fixed

set_option linter.unusedSectionVars false

namespace Vio
open Spec WinSpec Update Res DMat PropQueue PropSpec

variable {T : Type} [TimeOps T] [TimeCast T ℝ]

/-! ### The offset -/

theorem shiftCov_symm (nc : Nat) {S : Nat → Nat → ℝ} (hS : ∀ a b, S a b = S b a) (i j : Nat) : shiftCov nc S i j = shiftCov nc S j i := by
  unfold shiftCov
  cases axisOf nc i <;> cases axisOf nc j <;> simp only
  exact hS _ _

theorem shiftCov_left (nc : Nat) (S : Nat → Nat → ℝ) {i i' : Nat} (h : axisOf nc i = axisOf nc i') (j : Nat) : shiftCov nc S i j = shiftCov nc S i' j := by
  unfold shiftCov; rw [h]

theorem shiftCov_right (nc : Nat) (S : Nat → Nat → ℝ) {j j' : Nat} (h : axisOf nc j = axisOf nc j') (i : Nat) : shiftCov nc S i j = shiftCov nc S i j' := by
  unfold shiftCov; rw [h]

theorem shiftCov_none (nc : Nat) (S : Nat → Nat → ℝ) {i : Nat} (h : axisOf nc i = none) (j : Nat) : shiftCov nc S i j = 0 := by
  unfold shiftCov; rw [h]

theorem shiftCov_none' (nc : Nat) (S : Nat → Nat → ℝ) {j : Nat} (h : axisOf nc j = none) (i : Nat) : shiftCov nc S i j = 0 := by
  unfold shiftCov; rw [h]; cases axisOf nc i <;> rfl

theorem shiftCov_zero (nc i j : Nat) : shiftCov nc (fun _ _ => 0) i j = 0 := by
  unfold shiftCov
  cases axisOf nc i <;> cases axisOf nc j <;> rfl

theorem axis_mid (nc i : Nat) (h1 : 3 ≤ i) (h2 : i < 15 + 6 * nc) : axisOf nc i = none := by
  unfold axisOf
  rw [if_neg (by omega), if_neg (by omega)]

theorem axis_clone (nc k i : Nat) (hi : i < 15 + 6 * (nc + k) + 6) : axisOf nc (cloneIdx (15 + 6 * (nc + k)) i) = axisOf nc i := by
  unfold cloneIdx
  split
  · rfl
  · rename_i h1
    split
    · rename_i h2
      unfold axisOf
      have e : (i - (15 + 6 * nc)) % 6 = i - (15 + 6 * (nc + k)) := by omega
      rw [if_pos (by omega), if_neg (by omega), if_pos (by omega), e]
    · rename_i h2
      unfold axisOf
      rw [if_neg (by omega), if_neg (by omega), if_neg (by omega), if_neg (by omega)]

theorem axis_skip (nc d i : Nat) : axisOf nc (skipIdx (15 + nc * 6 + d * 6) i) = axisOf nc i := by
  unfold skipIdx
  split
  · rfl
  · rename_i h
    unfold axisOf
    have e : (i + 6 - (15 + 6 * nc)) % 6 = (i - (15 + 6 * nc)) % 6 := by omega
    rw [e, if_neg (by omega), if_neg (by omega : ¬ i < 3)]
    by_cases hc : (i - (15 + 6 * nc)) % 6 < 3
    · rw [if_pos ⟨by omega, hc⟩, if_pos ⟨by omega, hc⟩]
    · rw [if_neg (fun h => hc h.2), if_neg (fun h => hc h.2)]

/-- Every column of the offset shifts the whole world. -/
theorem shiftCov_moves (m : FrameMgr ℝ T) (S : Nat → Nat → ℝ) (j : Nat) :
    MovesWorld m ⟨shiftCov m.extrinsics.length S 0 j, shiftCov m.extrinsics.length S 1 j, shiftCov m.extrinsics.length S 2 j⟩ 0 0 (fun i => shiftCov m.extrinsics.length S i j) := by
  have hn : ∀ i, axisOf m.extrinsics.length i = none → axisOf m.extrinsics.length (i + 1) = none → axisOf m.extrinsics.length (i + 2) = none →
      triple (fun i => shiftCov m.extrinsics.length S i j) i = 0 := by
    intro i h1 h2 h3
    unfold triple
    dsimp only
    rw [shiftCov_none _ _ h1, shiftCov_none _ _ h2, shiftCov_none _ _ h3]
    rfl
  refine ⟨fun k f hk => ?_, fun k f hk => ?_, fun c e hc => ?_, fun c e hc => ?_⟩
  · have hm : ∀ t p : Vec3 ℝ, moved t 0 0 p = t := by
      intro t p
      unfold moved
      apply Vec3.ext <;> simp [Vec3.cross]
    rw [hm]
    unfold triple posAt
    dsimp only
    split
    · rfl
    · have ha : ∀ a < 3, axisOf m.extrinsics.length (15 + 6 * m.extrinsics.length + 6 * k + a) = axisOf m.extrinsics.length a := by
        intro a h3
        unfold axisOf
        rw [if_neg (by omega), if_pos (by omega), if_pos h3]
        congr 1
        omega
      rw [shiftCov_left _ S (show axisOf _ (15 + 6 * m.extrinsics.length + 6 * k) = _ from ha 0 (by omega)), shiftCov_left _ S (ha 1 (by omega)), shiftCov_left _ S (ha 2 (by omega))]
  · have h0 : f.q.inverse.rotate (0 : Vec3 ℝ) = 0 := by
      apply Vec3.ext <;> simp [Quat.rotate, Quat.vec, Vec3.cross]
    rw [h0]
    unfold rotAt
    split
    · exact hn _ (axis_mid _ _ (by omega) (by omega)) (axis_mid _ _ (by omega) (by omega)) (axis_mid _ _ (by omega) (by omega))
    · have ha : ∀ a < 3, axisOf m.extrinsics.length (15 + 6 * m.extrinsics.length + 6 * k + 3 + a) = none := by
        intro a h3
        unfold axisOf
        rw [if_neg (by omega), if_neg (by omega)]
      exact hn _ (ha 0 (by omega)) (ha 1 (by omega)) (ha 2 (by omega))
  · have hlt : c < m.extrinsics.length := (List.getElem?_eq_some_iff.1 hc).1
    rw [show Vec3.smul (0 : ℝ) e.p = 0 from by apply Vec3.ext <;> simp]
    exact hn _ (axis_mid _ _ (by omega) (by omega)) (axis_mid _ _ (by omega) (by omega)) (axis_mid _ _ (by omega) (by omega))
  · have hlt : c < m.extrinsics.length := (List.getElem?_eq_some_iff.1 hc).1
    exact hn _ (axis_mid _ _ (by omega) (by omega)) (axis_mid _ _ (by omega) (by omega)) (axis_mid _ _ (by omega) (by omega))

/-! ### Matrices -/

theorem Spec.OffBy.block {D : Nat → Nat → ℝ} {a a' : DMat ℝ} (h : OffBy D a a') (i j r c : Nat) :
    Both (OffBy (fun x y => D (i + x) (j + y))) (a.block i j r c) (a'.block i j r c) := by
  unfold DMat.block
  rw [h.rows, h.cols]
  split
  · rename_i hb
    exact ⟨rfl, rfl, fun x y hx hy => h.at' _ _ (by have : x < r := hx; omega) (by have : y < c := hy; omega)⟩
  · rfl

theorem Spec.OffBy.symm {D : Nat → Nat → ℝ} {a a' : DMat ℝ} {n : Nat} (h : OffBy D a a') (hr : a.rows = n) (hc : a.cols = n) (hD : ∀ i j, D i j = D j i) (hs : SymmTo n a.e) : SymmTo n a'.e := by
  intro i j hi hj
  rw [h.at' i j (by omega) (by omega), h.at' j i (by omega) (by omega), hs i j hi hj, hD]

/-! ### Queues -/

/-- Items as in `ItemOff`, with covariances of the sizes of the code. -/
structure IOff (D : Nat → Nat → ℝ) (i i' : PropItem ℝ T) : Prop extends ItemOff D i i' where
  r1 : i.imuCov.rows = 15
  c1 : i.imuCov.cols = 15
  r2 : i.imuEx.rows = 15

/-- Queues as in `QueueOff`. -/
structure QOff (D : Nat → Nat → ℝ) (s s' : PropQueue ℝ T) : Prop where
  items : List.Forall₂ (IOff D) s.items s'.items
  exCam : s.items ≠ [] → OffBy (fun x y => D (15 + x) (15 + y)) s.exCamCov s'.exCamCov
  biasA : s'.biasA = s.biasA
  biasG : s'.biasG = s.biasG
  init : s'.initState = s.initState
  F : s'.F = s.F
  G : s'.G = s.G
  Q : s'.Q = s.Q
  clean : Clean s

/-- The first three columns of the transition matrix are those of the identity, so it keeps what sits in the position alone. -/
theorem stepF_keeps (s : PropQueue ℝ T) (hc : Clean s) (i : PropItem ℝ T) (a w : Vec3 ℝ) (t : T) (v : Nat → ℝ) (hv : ∀ l, 3 ≤ l → l < 15 → v l = 0) (x : Nat) (hx : x < 15) :
    sumTo 15 (fun l => (s.stepF i a w t).e x l * v l) = v x := by
  have hF : s.stepF i a w t = fillF (.ident 15) (dt i.ts t) i.st.q (midAccel s.biasA i.accel a) (midGyro s.biasG i.gyro w) := hc.1 _ _ _ _
  have f : ∀ l, l < 3 → (s.stepF i a w t).e x l = if x = l then 1 else 0 := by
    intro l hl
    rw [hF, fillF_ident _ _ _ _ _ _ hx (by omega)]
    interval_cases l <;> interval_cases x <;> simp [Fspec, delta]
  have h0 : ∀ l, 3 ≤ l → l < 15 → (s.stepF i a w t).e x l * v l = 0 := fun l h1 h2 => by rw [hv l h1 h2, mul_zero]
  simp only [sumTo]
  rw [h0 3 (by omega) (by omega), h0 4 (by omega) (by omega), h0 5 (by omega) (by omega), h0 6 (by omega) (by omega), h0 7 (by omega) (by omega), h0 8 (by omega) (by omega),
    h0 9 (by omega) (by omega), h0 10 (by omega) (by omega), h0 11 (by omega) (by omega), h0 12 (by omega) (by omega), h0 13 (by omega) (by omega), h0 14 (by omega) (by omega),
    f 0 (by omega), f 1 (by omega), f 2 (by omega)]
  by_cases h3 : x < 3
  · interval_cases x <;> simp
  · rw [if_neg (by omega), if_neg (by omega), if_neg (by omega), hv x (by omega) hx]
    ring

theorem sumTo_add (n : Nat) (f g : Nat → ℝ) : sumTo n (fun k => f k + g k) = sumTo n f + sumTo n g := by
  rw [sumTo_eq, sumTo_eq, sumTo_eq, Finset.sum_add_distrib]

theorem stepItem_off {nc : Nat} {S : Nat → Nat → ℝ} {s s' : PropQueue ℝ T} (h : QOff (shiftCov nc S) s s') {i i' : PropItem ℝ T} (hi : IOff (shiftCov nc S) i i') (g a w : Vec3 ℝ) (t : T) :
    IOff (shiftCov nc S) (s.stepItem g i a w t) (s'.stepItem g i' a w t) ∧ s'.stepF i' a w t = s.stepF i a w t ∧ s'.stepG i' t = s.stepG i t := by
  have e1 : s'.stepF i' a w t = s.stepF i a w t := by
    unfold PropQueue.stepF
    rw [h.F, h.biasA, h.biasG, hi.st, hi.accel, hi.gyro, hi.ts]
  have e2 : s'.stepG i' t = s.stepG i t := by
    unfold PropQueue.stepG
    rw [h.G, hi.st, hi.ts]
  have hF : s.stepF i a w t = fillF (.ident 15) (dt i.ts t) i.st.q (midAccel s.biasA i.accel a) (midGyro s.biasG i.gyro w) := h.clean.1 _ _ _ _
  have f1 : (s.stepF i a w t).rows = 15 := by rw [hF]; rfl
  have f2 : (s.stepF i a w t).cols = 15 := by rw [hF]; rfl
  have hz : ∀ y l, 3 ≤ l → l < 15 → shiftCov nc S l y = 0 := fun y l h1 h2 => shiftCov_none _ _ (axis_mid _ _ h1 (by omega)) y
  have hz' : ∀ x l, 3 ≤ l → l < 15 → shiftCov nc S x l = 0 := fun x l h1 h2 => shiftCov_none' _ _ (axis_mid _ _ h1 (by omega)) x
  refine ⟨⟨⟨?_, rfl, rfl, rfl, ?_, ?_⟩, f1, f1, f1⟩, e1, e2⟩
  · show s'.nominal g i' a w t = s.nominal g i a w t
    unfold PropQueue.nominal
    rw [h.biasA, h.biasG, hi.st, hi.accel, hi.gyro, hi.ts]
  · show OffBy _ (((s.stepF i a w t).mulF i.imuCov).mulF (s.stepF i a w t).transpose |>.addF (((s.stepG i t).mulF s.Q).mulF (s.stepG i t).transpose))
      (((s'.stepF i' a w t).mulF i'.imuCov).mulF (s'.stepF i' a w t).transpose |>.addF (((s'.stepG i' t).mulF s'.Q).mulF (s'.stepG i' t).transpose))
    rw [e1, e2, h.Q]
    refine ⟨rfl, rfl, fun x y hx hy => ?_⟩
    have hx : x < 15 := by rw [← f1]; exact hx
    have hy : y < 15 := by rw [← f1]; exact hy
    show sumTo i'.imuCov.cols (fun k => sumTo (s.stepF i a w t).cols (fun l => (s.stepF i a w t).e x l * i'.imuCov.e l k) * (s.stepF i a w t).e y k) + _ =
      sumTo i.imuCov.cols (fun k => sumTo (s.stepF i a w t).cols (fun l => (s.stepF i a w t).e x l * i.imuCov.e l k) * (s.stepF i a w t).e y k) + _ + _
    rw [hi.cov.cols, hi.c1, f2]
    have inner : ∀ k, k < 15 → sumTo 15 (fun l => (s.stepF i a w t).e x l * i'.imuCov.e l k) =
        sumTo 15 (fun l => (s.stepF i a w t).e x l * i.imuCov.e l k) + shiftCov nc S x k := by
      intro k hk
      rw [← stepF_keeps s h.clean i a w t (fun l => shiftCov nc S l k) (hz k) x hx, ← sumTo_add]
      exact sumTo_congr (fun l hl => by rw [hi.cov.at' l k (by rw [hi.r1]; exact hl) (by rw [hi.c1]; exact hk)]; ring)
    have outer : sumTo 15 (fun k => sumTo 15 (fun l => (s.stepF i a w t).e x l * i'.imuCov.e l k) * (s.stepF i a w t).e y k) =
        sumTo 15 (fun k => sumTo 15 (fun l => (s.stepF i a w t).e x l * i.imuCov.e l k) * (s.stepF i a w t).e y k) + shiftCov nc S x y := by
      rw [← stepF_keeps s h.clean i a w t (fun k => shiftCov nc S x k) (hz' x) y hy, ← sumTo_add]
      exact sumTo_congr (fun k hk => by rw [inner k hk]; ring)
    rw [outer]
    ring
  · show OffBy _ ((s.stepF i a w t).mulF i.imuEx) ((s'.stepF i' a w t).mulF i'.imuEx)
    rw [e1]
    refine ⟨rfl, hi.ex.cols, fun x y hx hy => ?_⟩
    have hx : x < 15 := by rw [← f1]; exact hx
    have hy : y < i.imuEx.cols := hy
    show sumTo (s.stepF i a w t).cols (fun l => (s.stepF i a w t).e x l * i'.imuEx.e l y) = sumTo (s.stepF i a w t).cols (fun l => (s.stepF i a w t).e x l * i.imuEx.e l y) + _
    rw [f2, ← stepF_keeps s h.clean i a w t (fun l => shiftCov nc S l (15 + y)) (hz (15 + y)) x hx, ← sumTo_add]
    exact sumTo_congr (fun l hl => by rw [hi.ex.at' l y (by rw [hi.r2]; exact hl) hy]; ring)

theorem IOff.refl (nc : Nat) (i : PropItem ℝ T) (r1 : i.imuCov.rows = 15) (c1 : i.imuCov.cols = 15) (r2 : i.imuEx.rows = 15) : IOff (shiftCov nc fun _ _ => 0) i i :=
  ⟨⟨rfl, rfl, rfl, rfl, ⟨rfl, rfl, fun x y _ _ => by rw [shiftCov_zero, add_zero]⟩, ⟨rfl, rfl, fun x y _ _ => by rw [shiftCov_zero, add_zero]⟩⟩, r1, c1, r2⟩

theorem forall₂_nil {α β : Type _} {R : α → β → Prop} {l : List α} {l' : List β} (h : List.Forall₂ R l l') (hl : l = []) : l' = [] := by
  subst hl; cases h; rfl

theorem propagate_off {nc : Nat} {S : Nat → Nat → ℝ} {s s' : PropQueue ℝ T} (h : QOff (shiftCov nc S) s s') (he : s.items = [] → S = fun _ _ => 0) (nExt : Nat) (g a w : Vec3 ℝ) (t : T) :
    QOff (shiftCov nc S) (s.propagate nExt g a w t) (s'.propagate nExt g a w t) := by
  have hc : Clean (s.propagate nExt g a w t) := clean_step nExt s (.sample g a w t) h.clean
  revert hc
  unfold PropQueue.propagate
  rcases forall₂_getLast h.items with ⟨h1, h2⟩ | ⟨x, y, h1, h2, h3⟩
  · rw [h1, h2]
    dsimp only
    obtain rfl := he (List.getLast?_eq_none_iff.1 h1)
    intro hc
    rw [h.init]
    exact ⟨.cons (IOff.refl nc _ rfl rfl rfl) .nil, fun _ => ⟨rfl, rfl, fun x y _ _ => by rw [shiftCov_zero, add_zero]⟩, h.biasA, h.biasG, rfl, rfl, rfl, h.Q, hc⟩
  · rw [h1, h2]
    dsimp only
    intro hc
    obtain ⟨e1, e2, e3⟩ := stepItem_off h h3 g a w t
    refine ⟨List.rel_append h.items (.cons e1 .nil), fun _ => h.exCam ?_, h.biasA, h.biasG, h.init, e2, e3, h.Q, hc⟩
    intro hn; rw [hn] at h1; cases h1

theorem replay_off {nc : Nat} (mounted : Bool) (nExt : Nat) (g : Vec3 ℝ) (its : List (AttItem ℝ T)) : ∀ s s' : PropQueue ℝ T, QOff (shiftCov nc fun _ _ => 0) s s' →
    Both (QOff (shiftCov nc fun _ _ => 0)) (Backend.replay mounted nExt g s its) (Backend.replay mounted nExt g s' its) := by
  induction its with
  | nil => intro s s' h; exact h
  | cons it its ih =>
    intro s s' h
    rw [Backend.replay, Backend.replay]
    split
    · exact ih _ _ (propagate_off h (fun _ => rfl) nExt g _ _ _)
    · rfl

theorem repropLoop_off {nc : Nat} {S : Nat → Nat → ℝ} (g : Vec3 ℝ) {l l' : List (PropItem ℝ T)} (hl : List.Forall₂ (IOff (shiftCov nc S)) l l') :
    ∀ (s s' : PropQueue ℝ T) (i i' : PropItem ℝ T), QOff (shiftCov nc S) s s' → IOff (shiftCov nc S) i i' →
    QOff (shiftCov nc S) (PropQueue.repropLoop g s i l).1 (PropQueue.repropLoop g s' i' l').1 ∧ (PropQueue.repropLoop g s i l).1.items = s.items ∧
      List.Forall₂ (IOff (shiftCov nc S)) (PropQueue.repropLoop g s i l).2 (PropQueue.repropLoop g s' i' l').2 := by
  induction hl with
  | nil => intro s s' i i' h _; exact ⟨h, rfl, .nil⟩
  | cons h1 hl ih =>
    rename_i a b l l'
    intro s s' i i' h hi
    obtain ⟨e1, e2, e3⟩ := stepItem_off h hi g a.accel a.gyro a.ts
    rw [PropQueue.repropLoop, PropQueue.repropLoop]
    dsimp only
    rw [h1.accel, h1.gyro, h1.ts, e2, e3]
    obtain ⟨r1, r2, r3⟩ := ih { s with F := s.stepF i a.accel a.gyro a.ts, G := s.stepG i a.ts } { s' with F := s.stepF i a.accel a.gyro a.ts, G := s.stepG i a.ts } _ _
      ⟨h.items, h.exCam, h.biasA, h.biasG, h.init, rfl, rfl, h.Q, clean_fill s _ h.clean _ _ _ _ _ _ rfl rfl⟩ e1
    exact ⟨r1, r2, .cons e1 r3⟩

theorem repropagate_off {nc : Nat} {S : Nat → Nat → ℝ} {s s' : PropQueue ℝ T} (h : QOff (shiftCov nc S) s s') (g : Vec3 ℝ) : QOff (shiftCov nc S) (s.repropagate g) (s'.repropagate g) := by
  have hit := h.items
  have hc : Clean (s.repropagate g) := clean_step 0 s (.reprop g) h.clean
  revert hc
  unfold PropQueue.repropagate
  cases hs : s.items with
  | nil =>
    rw [hs] at hit
    cases hs' : s'.items with
    | nil => intro _; exact h
    | cons a l => rw [hs'] at hit; cases hit
  | cons a l =>
    rw [hs] at hit
    cases hs' : s'.items with
    | nil => rw [hs'] at hit; cases hit
    | cons b l' =>
      rw [hs'] at hit
      cases hit with
      | cons h1 h2 =>
        intro hc
        obtain ⟨r1, r2, r3⟩ := repropLoop_off g h2 s s' a b h h1
        exact ⟨.cons h1 r3, fun _ => r1.exCam (by rw [r2, hs]; simp), r1.biasA, r1.biasG, r1.init, r1.F, r1.G, r1.Q, hc⟩

theorem resetLoop_off {D : Nat → Nat → ℝ} (ts thr : T) {l l' : List (PropItem ℝ T)} (hl : List.Forall₂ (IOff D) l l') :
    List.Forall₂ (IOff D) (PropQueue.resetLoop ts thr l) (PropQueue.resetLoop ts thr l') := by
  induction hl with
  | nil => exact .nil
  | cons h1 hl ih =>
    rw [PropQueue.resetLoop, PropQueue.resetLoop, h1.ts]
    split
    · exact ih
    · exact .cons h1 hl

theorem resetOrigin_off {D : Nat → Nat → ℝ} {s s' : PropQueue ℝ T} (h : QOff D s s') (ts thr : T) :
    QOff D (s.resetOrigin ts thr).1 (s'.resetOrigin ts thr).1 ∧ (s'.resetOrigin ts thr).2 = (s.resetOrigin ts thr).2 := by
  have hc : Clean (s.resetOrigin ts thr).1 := clean_step 0 s (.reset ts thr) h.clean
  revert hc
  unfold PropQueue.resetOrigin
  rw [← forall₂_isEmpty h.items]
  split
  · intro _; exact ⟨h, rfl⟩
  · rename_i hne
    intro hc
    have := resetLoop_off ts thr h.items
    exact ⟨⟨this, fun _ => h.exCam (by simpa using hne), h.biasA, h.biasG, h.init, h.F, h.G, h.Q, hc⟩, by dsimp only; rw [forall₂_isEmpty this]⟩

/-! ### The update -/

namespace Update

theorem front_off {D : Nat → Nat → ℝ} {s s' : PropQueue ℝ T} (h : QOff D s s') : Both (IOff D) (front s.items) (front s'.items) := by
  have := h.items
  cases hs : s.items <;> cases hs' : s'.items <;> rw [hs, hs'] at this <;> cases this
  · rfl
  · rename_i h1 _; exact h1

theorem constructCov_off {nc : Nat} {S : Nat → Nat → ℝ} (hS : ∀ a b, S a b = S b a) {s s' : PropQueue ℝ T} (h : QOff (shiftCov nc S) s s') (hq : CovInv s) (m : FrameMgr ℝ T) (hf : m.frames ≠ [])
    (hlt : (m.extrinsics.length + m.frames.length) * 6 < two32) :
    Both (fun x y => x.1 = y.1 ∧ (x.1 = true → OffBy (shiftCov nc S) x.2 y.2)) (constructCov s m) (constructCov s' m) := by
  have hit := h.items
  cases hs : s.items with
  | nil =>
    have hs' := forall₂_nil hit hs
    unfold constructCov
    rw [hs, hs']
    exact rfl
  | cons a l =>
    rw [hs] at hit
    cases hs' : s'.items with
    | nil => rw [hs'] at hit; cases hit
    | cons b l' =>
      rw [hs'] at hit
      cases hit with
      | cons h1 h2 =>
        have hj := hq.psd a (by rw [hs]; simp)
        have hX := h.exCam (by rw [hs]; simp)
        obtain ⟨gd, c, k1, k2, k3⟩ := C41_assembly s m a l hs hf hlt hj.rows hj.cols hj.exRows hj.exCols.symm (hq.sq.trans hj.exCols.symm)
        obtain ⟨gd', c', k1', k2', k3'⟩ := C41_assembly s' m b l' hs' hf hlt (by rw [h1.cov.rows, h1.r1]) (by rw [h1.cov.cols, h1.c1]) (by rw [h1.ex.rows, h1.r2])
          (by rw [hX.rows, h1.ex.cols, hj.exCols]) (by rw [hX.cols, h1.ex.cols, hq.sq, hj.exCols])
        rw [k1, k1']
        have hg : gd = gd' := by
          rw [h1.ex.cols] at k2'
          cases gd <;> cases gd' <;> simp_all
        refine ⟨hg, fun ht => ?_⟩
        dsimp only at ht ⊢
        subst hg
        obtain ⟨l1, l2, l3⟩ := k3 ht
        obtain ⟨l1', l2', l3'⟩ := k3' ht
        refine ⟨by rw [l1, l1', h1.ex.cols], by rw [l2, l2', h1.ex.cols], fun i j hi hj' => ?_⟩
        rw [l3 i j hi hj', l3' i j (by rw [l1', h1.ex.cols, ← l1]; exact hi) (by rw [l2', h1.ex.cols, ← l2]; exact hj')]
        unfold jointEntry
        have r1 := h1.r1
        have c1 := h1.c1
        have r2 := h1.r2
        have ec := hj.exCols
        have sq := hq.sq
        by_cases a1 : i < 15 <;> by_cases a2 : j < 15
        · rw [if_pos a1, if_pos a1, if_pos a2, if_pos a2]
          exact h1.cov.at' i j (by omega) (by omega)
        · rw [if_pos a1, if_pos a1, if_neg a2, if_neg a2, h1.ex.at' i (j - 15) (by omega) (by omega), show 15 + (j - 15) = j from by omega]
        · rw [if_neg a1, if_neg a1, if_pos a2, if_pos a2, h1.ex.at' j (i - 15) (by omega) (by omega), show 15 + (i - 15) = i from by omega, shiftCov_symm nc hS]
        · rw [if_neg a1, if_neg a1, if_neg a2, if_neg a2, hX.at' (i - 15) (j - 15) (by omega) (by omega), show 15 + (j - 15) = j from by omega, show 15 + (i - 15) = i from by omega]

theorem updateNewest_off {D : Nat → Nat → ℝ} {s s' : PropQueue ℝ T} (h : QOff D s s') (m : FrameMgr ℝ T) : updateNewest s' m = updateNewest s m := by
  unfold updateNewest
  split
  · rfl
  · have := front_off h
    cases hf : front s.items <;> cases hf' : front s'.items <;> rw [hf, hf'] at this
    · rw [Res.bind_ok, Res.bind_ok, this.st]
    · exact absurd this (by simp [Both])
    · exact absurd this (by simp [Both])
    · rw [this]

theorem correct_off {D : Nat → Nat → ℝ} {dx dx' : DMat ℝ} (h : Agree dx dx') {s s' : PropQueue ℝ T} (hs : QOff D s s') (m : FrameMgr ℝ T) :
    Both (fun x y => QOff D x.1 y.1 ∧ x.2 = y.2) (correct dx s m) (correct dx' s' m) := by
  unfold correct
  have hit := hs.items
  cases hl : s.items with
  | nil =>
    rw [forall₂_nil hit hl]
    rfl
  | cons a l =>
    have hX := hs.exCam (by rw [hl]; simp)
    rw [hl] at hit
    cases hl' : s'.items with
    | nil => rw [hl'] at hit; cases hit
    | cons b l' =>
      rw [hl'] at hit
      cases hit with
      | cons h1 h2 =>
        dsimp only
        refine (h.segment3 _).bind (fun dp _ _ _ e => ?_); subst e
        refine (h.segment3 _).bind (fun dv _ _ _ e => ?_); subst e
        refine (h.segment3 _).bind (fun dr _ _ _ e => ?_); subst e
        refine (h.segment3 _).bind (fun dba _ _ _ e => ?_); subst e
        refine (h.segment3 _).bind (fun dbg _ _ _ e => ?_); subst e
        rw [h1.st]
        refine (corrExt_same h _ _).bind (fun ex _ _ _ e => ?_); subst e
        refine (Both.refl (R := Eq) (fun _ => rfl) _).bind (fun bk _ _ _ e => ?_); subst e
        refine (corrFrames_same h _ _ _ _ _).bind (fun fs _ _ _ e => ?_); subst e
        rw [hs.biasA, hs.biasG]
        exact ⟨⟨.cons ⟨⟨rfl, h1.accel, h1.gyro, h1.ts, h1.cov, h1.ex⟩, h1.r1, h1.c1, h1.r2⟩ h2, fun _ => hX, rfl, rfl, hs.init, hs.F, hs.G, hs.Q, hs.clean⟩, rfl⟩

theorem storeCov_off {D : Nat → Nat → ℝ} {s s' : PropQueue ℝ T} (hs : QOff D s s') {c c' : DMat ℝ} (h : OffBy D c c') : Both (QOff D) (storeCov s c) (storeCov s' c') := by
  unfold storeCov
  have hit := hs.items
  cases hl : s.items with
  | nil =>
    rw [forall₂_nil hit hl]
    rfl
  | cons a l =>
    rw [hl] at hit
    cases hl' : s'.items with
    | nil => rw [hl'] at hit; cases hit
    | cons b l' =>
      rw [hl'] at hit
      cases hit with
      | cons h1 h2 =>
        dsimp only
        rw [h.cols]
        refine (h.block _ _ _ _).bind (fun x x' kx _ hx => ?_)
        refine (h.block _ _ _ _).bind (fun y y' ky _ hy => ?_)
        refine (h.block _ _ _ _).bind (fun z z' _ _ hz => ?_)
        refine ⟨.cons ⟨⟨h1.st, h1.accel, h1.gyro, h1.ts, ⟨hx.rows, hx.cols, fun i j hi hj => ?_⟩, ⟨hy.rows, hy.cols, fun i j hi hj => ?_⟩⟩,
          (DMat.block_dims kx).1, (DMat.block_dims kx).2, (DMat.block_dims ky).1⟩ h2, fun _ => hz, hs.biasA, hs.biasG, hs.init, hs.F, hs.G, hs.Q, hs.clean⟩
        · have := hx.at' i j hi hj
          rw [Nat.zero_add, Nat.zero_add] at this
          exact this
        · have := hy.at' i j hi hj
          rw [Nat.zero_add] at this
          exact this

/-- Updaters that differ in covariances only; the scratch covariance and the list of features are left open. -/
structure UOff (D : Nat → Nat → ℝ) (u u' : Upd ℝ T) : Prop where
  q : QOff D u.q u'.q
  w : u'.w = u.w
  policy : u'.policy = u.policy
  pos : u'.pos = u.pos

theorem finish_off {S : Nat → Nat → ℝ} (hS : ∀ a b, S a b = S b a) (env : Env ℝ) (g : Vec3 ℝ) {u u' : Upd ℝ T} (h : UOff (shiftCov u.w.frm.extrinsics.length S) u u') (hf : 2 ≤ u.w.frm.frames.length)
    (hc : OffBy (shiftCov u.w.frm.extrinsics.length S) u.cov u'.cov) (h1 : u.cov.rows = hxCols u.w.frm) (h2 : u.cov.cols = hxCols u.w.frm) (hs : SymmTo (hxCols u.w.frm) u.cov.e) :
    Both (fun x y => x.1 = y.1 ∧ UOff (shiftCov u.w.frm.extrinsics.length S) x.2 y.2) (finish env g u) (finish env g u') := by
  obtain ⟨k, hk⟩ : ∃ k, u.w.frm.frames.length = k + 1 := ⟨u.w.frm.frames.length - 1, by omega⟩
  have hn : hxCols u.w.frm = 15 + 6 * (u.w.frm.extrinsics.length + k) := by unfold hxCols imuStateSize; omega
  rw [hn] at h1 h2 hs
  have hD := shiftCov_symm u.w.frm.extrinsics.length hS
  have hs' := hc.symm h1 h2 hD hs
  have hne : u.w.frm.frames ≠ [] := by intro he; rw [he] at hk; cases hk
  obtain ⟨c, x1, x2, x3, x4⟩ := C42_entries env.junk u.w.frm u.cov (15 + 6 * (u.w.frm.extrinsics.length + k)) hne (by omega) h1 h2 hs
  obtain ⟨c', y1, y2, y3, y4⟩ := C42_entries env.junk u.w.frm u'.cov (15 + 6 * (u.w.frm.extrinsics.length + k)) hne (by omega) (by rw [hc.rows, h1]) (by rw [hc.cols, h2]) hs'
  have hcl : ∀ i, i < 15 + 6 * (u.w.frm.extrinsics.length + k) + 6 → cloneIdx (15 + 6 * (u.w.frm.extrinsics.length + k)) i < 15 + 6 * (u.w.frm.extrinsics.length + k) :=
    fun i hi => cloneIdx_lt _ i (by omega) hi
  have hcc : OffBy (shiftCov u.w.frm.extrinsics.length S) c c' := by
    refine ⟨by rw [x2, y2], by rw [x3, y3], fun i j hi hj => ?_⟩
    rw [x2] at hi
    rw [x3] at hj
    rw [x4 i j hi hj, y4 i j hi hj, hc.at' _ _ (by rw [h1]; exact hcl i hi) (by rw [h2]; exact hcl j hj), shiftCov_left _ S (axis_clone _ k i hi), shiftCov_right _ S (axis_clone _ k j hj)]
  have hsc : SymmTo (15 + 6 * (u.w.frm.extrinsics.length + k) + 6) c.e := by
    intro i j hi hj
    rw [x4 i j hi hj, x4 j i hj hi, hs _ _ (hcl i hi) (hcl j hj)]
  have hred : Both (OffBy (shiftCov u.w.frm.extrinsics.length S)) (reduce env.junk u.policy u.w.frm c) (reduce env.junk u.policy u.w.frm c') := by
    cases hd : dropIndex u.w.frm.frames.length u.policy with
    | none =>
      have : u.policy = .noMarg := by
        cases hpol : u.policy <;> rw [hpol] at hd <;> first | rfl | (simp [dropIndex] at hd)
      rw [this, C43_none, C43_none]
      exact hcc
    | some d =>
      have hsc' := hcc.symm x2 x3 hD hsc
      obtain ⟨e, z1, z2, z3, z4⟩ := C43_reduce env.junk u.policy u.w.frm c (15 + 6 * (u.w.frm.extrinsics.length + k) + 6) d hf (by omega) x2 x3 hsc hd
      obtain ⟨e', w1, w2, w3, w4⟩ := C43_reduce env.junk u.policy u.w.frm c' (15 + 6 * (u.w.frm.extrinsics.length + k) + 6) d hf (by omega) y2 y3 hsc' hd
      rw [z1, w1]
      refine ⟨by rw [z2, w2], by rw [z3, w3], fun i j hi hj => ?_⟩
      rw [z2] at hi
      rw [z3] at hj
      have hsk : ∀ o i, i < 15 + 6 * (u.w.frm.extrinsics.length + k) + 6 - 6 → skipIdx o i < 15 + 6 * (u.w.frm.extrinsics.length + k) + 6 := by
        intro o i hi
        unfold skipIdx
        split <;> omega
      rw [z4 i j hi hj, w4 i j hi hj, hcc.at' _ _ (by rw [x2]; exact hsk _ _ hi) (by rw [x3]; exact hsk _ _ hj), shiftCov_left _ S (axis_skip _ d i), shiftCov_right _ S (axis_skip _ d j)]
  unfold finish
  rw [h.w, h.policy, x1, y1]
  simp only [Res.bind_ok]
  refine hred.bind (fun b b' _ _ hb => ?_)
  refine (storeCov_off h.q hb).bind (fun s s' _ _ hs => ?_)
  exact ⟨rfl, repropagate_off hs g, rfl, rfl, h.pos⟩

theorem update_off {S : Nat → Nat → ℝ} (hS : ∀ a b, S a b = S b a) (env : Env ℝ) (hext : GoodExt env.ext) (noise : ℝ) (maxUsed : Nat) (g : Vec3 ℝ) {u u' : Upd ℝ T} (ts thr : T)
    (h : UOff (shiftCov u.w.frm.extrinsics.length S) u u') (l : Log ℝ T) (hr : Rel l u.w) (hg : ∀ m ∈ l.msgs, GoodObs u.w.frm.extrinsics.length m) (h2 : 2 ≤ l.msgs.length)
    (hfit : Fits u.w.frm.extrinsics.length l.msgs.length maxUsed) (hi : CovInv u.q) :
    Both (fun x y => x.1 = y.1 ∧ UOff (shiftCov u.w.frm.extrinsics.length S) x.2 y.2) (update env noise maxUsed g u ts thr) (update env noise maxUsed g u' ts thr) := by
  have hlen := hr.len
  have hlt : (u.w.frm.extrinsics.length + u.w.frm.frames.length) * 6 < two32 := by rw [hlen]; exact hfit.cols
  have hne : u.w.frm.frames ≠ [] := by intro hc; rw [hc] at hlen; simp at hlen; omega
  have hci := resetOrigin_cov u.q ts thr hi
  have hD := shiftCov_symm u.w.frm.extrinsics.length hS
  rw [update_eq, update_eq]
  obtain ⟨r1, r2⟩ := resetOrigin_off h.q ts thr
  rw [r2, h.w, h.pos]
  split
  · exact ⟨rfl, r1, rfl, h.policy, rfl⟩
  refine (Both.refl (R := Eq) (fun _ => rfl) _).bind (fun policy _ _ _ e => ?_); subst e
  refine (constructCov_off hS r1 hci u.w.frm hne hlt).bind (fun ⟨gc, c⟩ ⟨gc', c'⟩ hc _ e => ?_)
  obtain ⟨e1, e2⟩ := e
  dsimp only at e1 e2 ⊢
  subst e1
  split
  · exact ⟨rfl, r1, rfl, rfl, rfl⟩
  rename_i hgc
  obtain rfl : gc = true := by simpa using hgc
  have hcc := e2 rfl
  rw [updateNewest_off r1]
  refine (Both.refl (R := Eq) (fun _ => rfl) _).bind (fun ⟨gm, m⟩ _ hm _ e => ?_); subst e
  dsimp only
  split
  · exact ⟨rfl, r1, rfl, rfl, rfl⟩
  rename_i hgm
  obtain rfl : gm = true := by simpa using hgm
  obtain ⟨n1, n2⟩ := updateNewest_length _ _ _ _ hm
  obtain ⟨f, fl, -, -, -, -, f5⟩ := selected_ready env maxUsed u _ m l hr hg (by omega) hfit hm
  refine (Both.refl (R := Eq) (fun _ => rfl) _).bind (fun ⟨w, fs, pos⟩ _ hs _ e => ?_); subst e
  obtain ⟨g1, g2, g3, g4⟩ := f5 w fs pos hs
  have hcols : hxCols w.frm = hxCols u.w.frm := by
    unfold hxCols
    rw [g2, n1, n2]
  have hnc : u.w.frm.extrinsics.length = w.frm.extrinsics.length := by rw [g2, n1]
  have hnf : u.w.frm.frames.length = w.frm.frames.length := by rw [g2]; omega
  obtain ⟨c1, c2, c3⟩ := constructCov_symm _ _ c hci hne hlt hc
  rw [← hcols] at c1 c2 c3
  rw [hnc] at hcc r1 hD ⊢
  unfold afterSelect
  dsimp only
  split
  · exact finish_off hS env g (u := { u with q := (u.q.resetOrigin ts thr).1, policy := policy, cov := c, w := w, features := fs, pos := pos }) ⟨r1, rfl, rfl, rfl⟩ (by dsimp only; omega) hcc c1 c2 c3
  obtain ⟨hxr, k, k', m1, m2, m3, m4, m5, m6, m7, m8, m9, m10, m11, m12, m13⟩ := C102_solve env hext noise c c' w l.base g1 fs g3 g4 c1 c2 (by rw [hcc.rows]; exact c1) (by rw [hcc.cols]; exact c2) c3
    (shiftCov w.frm.extrinsics.length S) (fun i j _ _ => hD i j) (fun i j hi hj => hcc.at' i j (by rw [c1]; exact hi) (by rw [c2]; exact hj))
    (fun j _ => ⟨_, _, _, .inl rfl, shiftCov_moves w.frm S j⟩)
  have hkk : ∀ P kk, kalman env.ext noise P hxr = .ok kk → solve env noise P w fs = .ok (some kk) := by
    intro P kk hkk
    unfold solve
    rw [m1]
    simp only [Res.bind_ok]
    rw [hkk]
    rfl
  rw [hkk c k m2, hkk c' k' m3]
  simp only [Res.bind_ok]
  have hx4 : hxr.cols = hxCols w.frm + 1 := by
    obtain ⟨hxr', p1, p2, -, -⟩ := measure_gram env hext w l.base g1 fs g3 g4
    rw [m1] at p1
    cases p1
    exact p2
  obtain ⟨-, -, ks⟩ := kalman_symm env.ext noise c hxr (hxCols w.frm) k c1 c2 hx4 m2
  have hdx : Agree k.dx k'.dx := by
    refine ⟨by rw [m4, m5], by rw [m6, m7], fun i j hi hj => ?_⟩
    obtain rfl : j = 0 := by rw [m6] at hj; omega
    exact (m12 i (by rw [← m4]; exact hi)).symm
  refine (correct_off hdx r1 w.frm).bind (fun ⟨s, m'⟩ ⟨s', m''⟩ hcor _ e => ?_)
  obtain ⟨z1, z2⟩ := e
  dsimp only at z1 z2 ⊢
  subst z2
  obtain ⟨q1, q2, -⟩ := correct_length _ _ _ _ _ hcor
  have hcols' : hxCols m' = hxCols w.frm := by unfold hxCols; rw [q1, q2]
  rw [← q1] at z1 ⊢
  refine finish_off hS env g (u := { u with q := s, policy := policy, cov := k.cov, w := { w with frm := m' }, features := fs, pos := pos }) ⟨z1, rfl, rfl, rfl⟩ (by dsimp only; omega) ?_ ?_ ?_ ?_
  · refine ⟨by dsimp only; rw [m8, m9], by dsimp only; rw [m10, m11], fun i j hi hj => ?_⟩
    dsimp only at hi hj ⊢
    rw [q1]
    exact m13 i j (by rw [← m8]; exact hi) (by rw [← m10]; exact hj)
  · dsimp only; rw [hcols', m8]
  · dsimp only; rw [hcols', m10]
  · dsimp only; rw [hcols']; exact ks

end Update

end Vio
