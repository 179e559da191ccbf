/-
Two runs side by side: matrices that agree in every entry they have, queues and backends that are equal up to that, and the proof that every step keeps them so.
-/
import Verif.Props.UpdateDims
import Verif.Lemmas.AnyRun

set_option linter.unusedSectionVars false

namespace Vio
open Spec WinSpec Update

namespace Res

/-- Both results are undefined for the same reason, or both are defined and related. -/
def Both {α β : Type _} (R : α → β → Prop) : Res α → Res β → Prop
  | .ok a, .ok b => R a b
  | .ub s, .ub t => s = t
  | _, _ => False

theorem Both.bind {α β γ δ : Type _} {R : α → β → Prop} {S : γ → δ → Prop} {x : Res α} {y : Res β} {f : α → Res γ} {g : β → Res δ} (h : Both R x y)
    (hf : ∀ a b, x = .ok a → y = .ok b → R a b → Both S (f a) (g b)) : Both S (x >>= f) (y >>= g) := by
  cases x <;> cases y
  · exact hf _ _ rfl rfl h
  · exact absurd h (by simp [Both])
  · exact absurd h (by simp [Both])
  · exact h

theorem Both.refl {α : Type _} {R : α → α → Prop} (h : ∀ a, R a a) (x : Res α) : Both R x x := by
  cases x
  · exact h _
  · rfl

theorem Both.of_eq {α : Type _} {R : α → α → Prop} {x y : Res α} (he : x = y) (h : ∀ a, x = .ok a → R a a) : Both R x y := by
  subst he
  cases x
  · exact h _ rfl
  · rfl

theorem Both.mono {α β : Type _} {R S : α → β → Prop} {x : Res α} {y : Res β} (h : Both R x y) (hs : ∀ a b, x = .ok a → y = .ok b → R a b → S a b) : Both S x y := by
  cases x <;> cases y
  · exact hs _ _ rfl rfl h
  · exact h
  · exact h
  · exact h

theorem Both.ok {α β : Type _} {R : α → β → Prop} {x : Res α} {y : Res β} (h : Both R x y) {a : α} (hx : x = .ok a) : ∃ b, y = .ok b ∧ R a b := by
  subst hx
  cases y
  · exact ⟨_, rfl, h⟩
  · exact absurd h (by simp [Both])

end Res

open Res

section Generic
variable {K T : Type} [Add K] [Sub K] [Mul K] [Neg K] [Div K] [Zero K] [One K] [ScalarFn K]
  [TimeOps T] [TimeCast T K]

theorem sumTo_congr {n : Nat} {f g : Nat → K} (h : ∀ k, k < n → f k = g k) : sumTo n f = sumTo n g := by
  induction n with
  | zero => rfl
  | succ n ih => rw [sumTo, sumTo, ih (fun k hk => h k (by omega)), h n (by omega)]

namespace DMat

/-- Same size and same entries; what an entry function says outside the matrix is left open. -/
structure Agree (a b : DMat K) : Prop where
  rows : a.rows = b.rows
  cols : a.cols = b.cols
  at' : ∀ i j, i < a.rows → j < a.cols → a.e i j = b.e i j

theorem Agree.refl (a : DMat K) : Agree a a := ⟨rfl, rfl, fun _ _ _ _ => rfl⟩

theorem Agree.symm {a b : DMat K} (h : Agree a b) : Agree b a := ⟨h.rows.symm, h.cols.symm, fun i j hi hj => (h.at' i j (by rw [h.rows]; exact hi) (by rw [h.cols]; exact hj)).symm⟩

theorem Agree.transpose {a b : DMat K} (h : Agree a b) : Agree a.transpose b.transpose := ⟨h.cols, h.rows, fun i j hi hj => h.at' j i hj hi⟩

theorem Agree.mulF {a a' b b' : DMat K} (ha : Agree a a') (hb : Agree b b') (hd : a.cols ≤ b.rows) : Agree (a.mulF b) (a'.mulF b') := by
  refine ⟨ha.rows, hb.cols, fun i j hi hj => ?_⟩
  show sumTo a.cols _ = sumTo a'.cols _
  rw [← ha.cols]
  refine sumTo_congr (fun k hk => ?_)
  rw [ha.at' i k hi hk, hb.at' k j (by omega) hj]

theorem Agree.mul {a a' b b' : DMat K} (ha : Agree a a') (hb : Agree b b') : Both Agree (a.mul b) (a'.mul b') := by
  unfold DMat.mul
  rw [← ha.cols, ← hb.rows]
  split
  · rename_i hd
    have := ha.mulF hb (by omega)
    unfold DMat.mulF at this
    rw [← ha.cols] at this
    exact this
  · rfl

theorem Agree.add {a a' b b' : DMat K} (ha : Agree a a') (hb : Agree b b') : Both Agree (a.add b) (a'.add b') := by
  unfold DMat.add
  rw [← ha.rows, ← ha.cols, ← hb.rows, ← hb.cols]
  split
  · rename_i hd
    exact ⟨rfl, rfl, fun i j hi hj => congrArg₂ (· + ·) (ha.at' i j hi hj) (hb.at' i j (by rw [← hd.1]; exact hi) (by rw [← hd.2]; exact hj))⟩
  · rfl

theorem Agree.addF {a a' b b' : DMat K} (ha : Agree a a') (hb : Agree b b') (hr : a.rows ≤ b.rows) (hc : a.cols ≤ b.cols) : Agree (a.addF b) (a'.addF b') :=
  ⟨ha.rows, ha.cols, fun i j hi hj => congrArg₂ (· + ·) (ha.at' i j hi hj) (hb.at' i j (lt_of_lt_of_le hi hr) (lt_of_lt_of_le hj hc))⟩

theorem Agree.neg {a a' : DMat K} (ha : Agree a a') : Agree a.neg a'.neg := ⟨ha.rows, ha.cols, fun i j hi hj => congrArg Neg.neg (ha.at' i j hi hj)⟩

theorem Agree.smul {a a' : DMat K} (ha : Agree a a') (k : K) : Agree (.smul k a) (.smul k a') := ⟨ha.rows, ha.cols, fun i j hi hj => congrArg (k * ·) (ha.at' i j hi hj)⟩

theorem Agree.addDiag {a a' : DMat K} (ha : Agree a a') (k : K) : Agree (a.addDiag k) (a'.addDiag k) := by
  refine ⟨ha.rows, ha.cols, fun i j hi hj => ?_⟩
  show (if i = j then a.e i j + k else a.e i j) = if i = j then a'.e i j + k else a'.e i j
  rw [ha.at' i j hi hj]

theorem Agree.block {a a' : DMat K} (ha : Agree a a') (i j r c : Nat) : Both Agree (a.block i j r c) (a'.block i j r c) := by
  unfold DMat.block
  rw [← ha.rows, ← ha.cols]
  split
  · rename_i h
    exact ⟨rfl, rfl, fun x y hx hy => ha.at' _ _ (by have : x < r := hx; omega) (by have : y < c := hy; omega)⟩
  · rfl

theorem Agree.setBlock {a a' b b' : DMat K} (ha : Agree a a') (hb : Agree b b') (i j r c : Nat) : Both Agree (a.setBlock i j r c b) (a'.setBlock i j r c b') := by
  unfold DMat.setBlock
  rw [← ha.rows, ← ha.cols, ← hb.rows, ← hb.cols]
  split
  · rfl
  · split
    · rfl
    · rename_i h1 h2
      rw [not_not] at h1 h2
      refine ⟨rfl, rfl, fun x y hx hy => ?_⟩
      dsimp only
      split
      · exact hb.at' _ _ (by omega) (by omega)
      · exact ha.at' x y hx hy

theorem Agree.resize {a a' : DMat K} (ha : Agree a a') (junk junk' : Nat → Nat → K) (r c : Nat) (hr : r ≤ a.rows) (hc : c ≤ a.cols) :
    Agree (a.conservativeResize junk r c) (a'.conservativeResize junk' r c) := by
  refine ⟨rfl, rfl, fun x y hx hy => ?_⟩
  have hx' : x < r := hx
  have hy' : y < c := hy
  show (if x < a.rows ∧ y < a.cols then a.e x y else junk x y) = if x < a'.rows ∧ y < a'.cols then a'.e x y else junk' x y
  rw [← ha.rows, ← ha.cols, if_pos ⟨by omega, by omega⟩, if_pos ⟨by omega, by omega⟩]
  exact ha.at' x y (by omega) (by omega)

theorem Agree.segment3 {a a' : DMat K} (ha : Agree a a') (i : Nat) : Both Eq (a.segment3 i) (a'.segment3 i) := by
  unfold DMat.segment3
  rw [← ha.rows, ← ha.cols]
  split
  · rename_i h
    show (⟨_, _, _⟩ : Vec3 K) = ⟨_, _, _⟩
    rw [ha.at' i 0 (by omega) h.2, ha.at' (i + 1) 0 (by omega) h.2, ha.at' (i + 2) 0 (by omega) h.2]
  · rfl

end DMat

open DMat

/-! ### Queues -/

/-- Items equal up to the entries outside their matrices; their covariances have fifteen rows. -/
structure ItemSame (i i' : PropItem K T) : Prop where
  st : i.st = i'.st
  accel : i.accel = i'.accel
  gyro : i.gyro = i'.gyro
  ts : i.ts = i'.ts
  cov : Agree i.imuCov i'.imuCov
  ex : Agree i.imuEx i'.imuEx
  r1 : i.imuCov.rows = imuStateSize
  r2 : i.imuEx.rows = imuStateSize
  c1 : i.imuCov.cols = imuStateSize

/-- Queues equal up to the entries outside the matrices. -/
structure QSame (s s' : PropQueue K T) : Prop where
  items : List.Forall₂ ItemSame s.items s'.items
  exCam : Agree s.exCamCov s'.exCamCov
  biasA : s.biasA = s'.biasA
  biasG : s.biasG = s'.biasG
  init : s.initState = s'.initState
  F : s.F = s'.F
  G : s.G = s'.G
  Q : s.Q = s'.Q
  f1 : s.F.rows = imuStateSize
  f2 : s.F.cols = imuStateSize
  g1 : s.G.rows = imuStateSize

theorem stepItem_same {s s' : PropQueue K T} (h : QSame s s') {i i' : PropItem K T} (hi : ItemSame i i') (g a w : Vec3 K) (t : T) :
    ItemSame (s.stepItem g i a w t) (s'.stepItem g i' a w t) ∧ s.stepF i a w t = s'.stepF i' a w t ∧ s.stepG i t = s'.stepG i' t := by
  have e1 : s.stepF i a w t = s'.stepF i' a w t := by
    unfold PropQueue.stepF
    rw [h.F, h.biasA, h.biasG, hi.st, hi.accel, hi.gyro, hi.ts]
  have e2 : s.stepG i t = s'.stepG i' t := by
    unfold PropQueue.stepG
    rw [h.G, hi.st, hi.ts]
  have f1 : (s.stepF i a w t).rows = imuStateSize := h.f1
  have f2 : (s.stepF i a w t).cols = imuStateSize := h.f2
  have g1 : (s.stepG i t).rows = imuStateSize := h.g1
  refine ⟨⟨?_, rfl, rfl, rfl, ?_, ?_, f1, f1, f1⟩, e1, e2⟩
  · show s.nominal g i a w t = s'.nominal g i' a w t
    unfold PropQueue.nominal
    rw [h.biasA, h.biasG, hi.st, hi.accel, hi.gyro, hi.ts]
  · show Agree (((s.stepF i a w t).mulF i.imuCov).mulF (s.stepF i a w t).transpose |>.addF (((s.stepG i t).mulF s.Q).mulF (s.stepG i t).transpose))
      (((s'.stepF i' a w t).mulF i'.imuCov).mulF (s'.stepF i' a w t).transpose |>.addF (((s'.stepG i' t).mulF s'.Q).mulF (s'.stepG i' t).transpose))
    rw [← e1, ← e2, ← h.Q]
    refine Agree.addF (Agree.mulF (Agree.mulF (Agree.refl _) hi.cov (by rw [f2, hi.r1])) (Agree.refl _) ?_) (Agree.refl _) ?_ ?_
    · show i.imuCov.cols ≤ (s.stepF i a w t).cols
      rw [f2, hi.c1]
    · show (s.stepF i a w t).rows ≤ (s.stepG i t).rows
      rw [f1, g1]
    · show (s.stepF i a w t).rows ≤ (s.stepG i t).rows
      rw [f1, g1]
  · show Agree ((s.stepF i a w t).mulF i.imuEx) ((s'.stepF i' a w t).mulF i'.imuEx)
    rw [← e1]
    exact Agree.mulF (Agree.refl _) hi.ex (by rw [f2, hi.r2])

theorem forall₂_getLast {α β : Type _} {R : α → β → Prop} {l : List α} {l' : List β} (h : List.Forall₂ R l l') :
    (l.getLast? = none ∧ l'.getLast? = none) ∨ ∃ a b, l.getLast? = some a ∧ l'.getLast? = some b ∧ R a b := by
  induction h with
  | nil => exact .inl ⟨rfl, rfl⟩
  | cons h hl ih =>
    rename_i a b l l'
    right
    rcases ih with ⟨h1, h2⟩ | ⟨x, y, h1, h2, h3⟩
    · rw [List.getLast?_eq_none_iff] at h1 h2
      subst h1; subst h2
      exact ⟨_, _, rfl, rfl, h⟩
    · exact ⟨x, y, by rw [List.getLast?_cons, h1]; rfl, by rw [List.getLast?_cons, h2]; rfl, h3⟩

theorem propagate_same {s s' : PropQueue K T} (h : QSame s s') (nExt : Nat) (g a w : Vec3 K) (t : T) : QSame (s.propagate nExt g a w t) (s'.propagate nExt g a w t) := by
  unfold PropQueue.propagate
  rcases forall₂_getLast h.items with ⟨h1, h2⟩ | ⟨x, y, h1, h2, h3⟩
  · rw [h1, h2]
    dsimp only
    rw [h.init]
    exact ⟨.cons ⟨rfl, rfl, rfl, rfl, .refl _, .refl _, rfl, rfl, rfl⟩ .nil, .refl _, h.biasA, h.biasG, rfl, rfl, rfl, h.Q, rfl, rfl, rfl⟩
  · rw [h1, h2]
    dsimp only
    obtain ⟨e1, e2, e3⟩ := stepItem_same h h3 g a w t
    exact ⟨List.rel_append h.items (.cons e1 .nil), h.exCam, h.biasA, h.biasG, h.init, e2, e3, h.Q, h.f1, h.f2, h.g1⟩

theorem replay_same (mounted : Bool) (nExt : Nat) (g : Vec3 K) (its : List (AttItem K T)) : ∀ s s' : PropQueue K T, QSame s s' →
    Both QSame (Backend.replay mounted nExt g s its) (Backend.replay mounted nExt g s' its) := by
  induction its with
  | nil => intro s s' h; exact h
  | cons it its ih =>
    intro s s' h
    rw [Backend.replay, Backend.replay]
    split
    · exact ih _ _ (propagate_same h nExt g _ _ _)
    · rfl

theorem repropLoop_same (g : Vec3 K) {l l' : List (PropItem K T)} (hl : List.Forall₂ ItemSame l l') : ∀ (s s' : PropQueue K T) (i i' : PropItem K T), QSame s s' → ItemSame i i' →
    QSame (PropQueue.repropLoop g s i l).1 (PropQueue.repropLoop g s' i' l').1 ∧ List.Forall₂ ItemSame (PropQueue.repropLoop g s i l).2 (PropQueue.repropLoop g s' i' l').2 := by
  induction hl with
  | nil => intro s s' i i' h _; exact ⟨h, .nil⟩
  | cons h1 hl ih =>
    rename_i a b l l'
    intro s s' i i' h hi
    obtain ⟨e1, e2, e3⟩ := stepItem_same h hi g a.accel a.gyro a.ts
    rw [PropQueue.repropLoop, PropQueue.repropLoop]
    dsimp only
    rw [← h1.accel, ← h1.gyro, ← h1.ts, ← e2, ← e3]
    obtain ⟨r1, r2⟩ := ih { s with F := s.stepF i a.accel a.gyro a.ts, G := s.stepG i a.ts } { s' with F := s.stepF i a.accel a.gyro a.ts, G := s.stepG i a.ts } _ _
      ⟨h.items, h.exCam, h.biasA, h.biasG, h.init, rfl, rfl, h.Q, h.f1, h.f2, h.g1⟩ e1
    exact ⟨r1, .cons e1 r2⟩

theorem repropagate_same {s s' : PropQueue K T} (h : QSame s s') (g : Vec3 K) : QSame (s.repropagate g) (s'.repropagate g) := by
  have hit := h.items
  unfold PropQueue.repropagate
  cases hs : s.items with
  | nil =>
    rw [hs] at hit
    cases hs' : s'.items with
    | nil => exact h
    | cons a l => rw [hs'] at hit; cases hit
  | cons a l =>
    rw [hs] at hit
    cases hs' : s'.items with
    | nil => rw [hs'] at hit; cases hit
    | cons b l' =>
      rw [hs'] at hit
      cases hit with
      | cons h1 h2 =>
        obtain ⟨r1, r2⟩ := repropLoop_same g h2 s s' a b h h1
        exact ⟨.cons h1 r2, r1.exCam, r1.biasA, r1.biasG, r1.init, r1.F, r1.G, r1.Q, r1.f1, r1.f2, r1.g1⟩

theorem resetLoop_same (ts thr : T) {l l' : List (PropItem K T)} (hl : List.Forall₂ ItemSame l l') : List.Forall₂ ItemSame (PropQueue.resetLoop ts thr l) (PropQueue.resetLoop ts thr l') := by
  induction hl with
  | nil => exact .nil
  | cons h1 hl ih =>
    rw [PropQueue.resetLoop, PropQueue.resetLoop, ← h1.ts]
    split
    · exact ih
    · exact .cons h1 hl

theorem forall₂_isEmpty {α β : Type _} {R : α → β → Prop} {l : List α} {l' : List β} (h : List.Forall₂ R l l') : l.isEmpty = l'.isEmpty := by cases h <;> rfl

theorem resetOrigin_same {s s' : PropQueue K T} (h : QSame s s') (ts thr : T) : QSame (s.resetOrigin ts thr).1 (s'.resetOrigin ts thr).1 ∧ (s.resetOrigin ts thr).2 = (s'.resetOrigin ts thr).2 := by
  unfold PropQueue.resetOrigin
  rw [← forall₂_isEmpty h.items]
  split
  · exact ⟨h, rfl⟩
  · have := resetLoop_same ts thr h.items
    exact ⟨⟨this, h.exCam, h.biasA, h.biasG, h.init, h.F, h.G, h.Q, h.f1, h.f2, h.g1⟩, by dsimp only; rw [forall₂_isEmpty this]⟩

/-! ### The update -/

namespace Update

theorem front_same {s s' : PropQueue K T} (h : QSame s s') : Both ItemSame (front s.items) (front s'.items) := by
  have := h.items
  cases hs : s.items <;> cases hs' : s'.items <;> rw [hs, hs'] at this <;> cases this
  · rfl
  · rename_i h1 _; exact h1

theorem constructCov_same {s s' : PropQueue K T} (h : QSame s s') (m : FrameMgr K T) :
    Both (fun x y => x.1 = y.1 ∧ Agree x.2 y.2) (constructCov s m) (constructCov s' m) := by
  unfold constructCov
  refine (front_same h).bind (fun i i' _ _ hi => ?_)
  dsimp only
  rw [← hi.ex.cols]
  generalize mul32 (sub32 (m.extrinsics.length + m.frames.length) 1) 6 = n
  split
  · exact ⟨rfl, .refl _⟩
  · refine (Agree.setBlock (.refl _) hi.cov _ _ _ _).bind (fun a a' _ _ ha => ?_)
    refine (ha.setBlock hi.ex _ _ _ _).bind (fun b b' _ _ hb => ?_)
    refine (hb.setBlock hi.ex.transpose _ _ _ _).bind (fun c c' _ _ hc => ?_)
    refine (hc.setBlock h.exCam _ _ _ _).bind (fun d d' _ _ hd => ?_)
    exact ⟨rfl, hd⟩

theorem updateNewest_same {s s' : PropQueue K T} (h : QSame s s') (m : FrameMgr K T) : updateNewest s m = updateNewest s' m := by
  unfold updateNewest
  split
  · rfl
  · have := front_same h
    cases hf : front s.items <;> cases hf' : front s'.items <;> rw [hf, hf'] at this
    · rw [Res.bind_ok, Res.bind_ok, this.st]
    · exact absurd this (by simp [Both])
    · exact absurd this (by simp [Both])
    · rw [this]

theorem corrExt_same {dx dx' : DMat K} (h : Agree dx dx') (es : List (Extrinsic K)) : ∀ i, Both Eq (corrExt dx i es) (corrExt dx' i es) := by
  induction es with
  | nil => intro i; rfl
  | cons e es ih =>
    intro i
    rw [corrExt, corrExt]
    refine (h.segment3 _).bind (fun a a' _ _ ha => ?_)
    refine (h.segment3 _).bind (fun b b' _ _ hb => ?_)
    refine (ih _).bind (fun c c' _ _ hc => ?_)
    subst ha; subst hb; subst hc
    rfl

theorem corrFrames_same {dx dx' : DMat K} (h : Agree dx dx') (backId offset : Nat) (st : Motion K) (fs : List (Frame K T)) : ∀ i,
    Both Eq (corrFrames dx backId offset st i fs) (corrFrames dx' backId offset st i fs) := by
  induction fs with
  | nil => intro i; rfl
  | cons f fs ih =>
    intro i
    rw [corrFrames, corrFrames]
    split
    · rfl
    · refine (h.segment3 _).bind (fun a a' _ _ ha => ?_)
      refine (h.segment3 _).bind (fun b b' _ _ hb => ?_)
      refine (ih _).bind (fun c c' _ _ hc => ?_)
      subst ha; subst hb; subst hc
      rfl

theorem correct_same {dx dx' : DMat K} (h : Agree dx dx') {s s' : PropQueue K T} (hs : QSame s s') (m : FrameMgr K T) :
    Both (fun x y => QSame x.1 y.1 ∧ x.2 = y.2) (correct dx s m) (correct dx' s' m) := by
  unfold correct
  have hit := hs.items
  cases hl : s.items with
  | nil =>
    rw [hl] at hit
    cases hl' : s'.items with
    | nil => rfl
    | cons b l' => rw [hl'] at hit; cases hit
  | cons a l =>
    rw [hl] at hit
    cases hl' : s'.items with
    | nil => rw [hl'] at hit; cases hit
    | cons b l' =>
      rw [hl'] at hit
      cases hit with
      | cons h1 h2 =>
        dsimp only
        refine (h.segment3 _).bind (fun dp _ _ _ e => ?_); subst e
        refine (h.segment3 _).bind (fun dv _ _ _ e => ?_); subst e
        refine (h.segment3 _).bind (fun dr _ _ _ e => ?_); subst e
        refine (h.segment3 _).bind (fun dba _ _ _ e => ?_); subst e
        refine (h.segment3 _).bind (fun dbg _ _ _ e => ?_); subst e
        rw [← h1.st]
        refine (corrExt_same h _ _).bind (fun ex _ _ _ e => ?_); subst e
        refine (Both.refl (R := Eq) (fun _ => rfl) _).bind (fun bk _ _ _ e => ?_); subst e
        refine (corrFrames_same h _ _ _ _ _).bind (fun fs _ _ _ e => ?_); subst e
        rw [← hs.biasA, ← hs.biasG]
        exact ⟨⟨.cons ⟨rfl, h1.accel, h1.gyro, h1.ts, h1.cov, h1.ex, h1.r1, h1.r2, h1.c1⟩ h2, hs.exCam, rfl, rfl, hs.init, hs.F, hs.G, hs.Q, hs.f1, hs.f2, hs.g1⟩, rfl⟩

/-- The zero blocks written first by the covariance expansion cover everything that the resize left uninitialised. -/
theorem clear_same {a a' : DMat K} (junk junk' : Nat → Nat → K) (n : Nat) (h : Agree a a') (hr : n ≤ a.rows) (hc : n ≤ a.cols) :
    Both (fun x y => Agree x y)
      ((a.conservativeResize junk (n + 6) (n + 6)).setBlock 0 n (n + 6) 6 (.zero (n + 6) 6) >>= fun c => c.setBlock n 0 6 (n + 6) (.zero 6 (n + 6)))
      ((a'.conservativeResize junk' (n + 6) (n + 6)).setBlock 0 n (n + 6) 6 (.zero (n + 6) 6) >>= fun c => c.setBlock n 0 6 (n + 6) (.zero 6 (n + 6))) := by
  have key : ∀ (b : DMat K) (jk : Nat → Nat → K), ((b.conservativeResize jk (n + 6) (n + 6)).setBlock 0 n (n + 6) 6 (.zero (n + 6) 6) >>= fun c => c.setBlock n 0 6 (n + 6) (.zero 6 (n + 6))) =
      .ok ⟨n + 6, n + 6, fun x y => if n ≤ x ∧ x < n + 6 ∧ 0 ≤ y ∧ y < 0 + (n + 6) then 0 else if 0 ≤ x ∧ x < 0 + (n + 6) ∧ n ≤ y ∧ y < n + 6 then 0 else
        if x < b.rows ∧ y < b.cols then b.e x y else jk x y⟩ := by
    intro b jk
    rw [setBlock_ok (a := b.conservativeResize jk (n + 6) (n + 6)) (i := 0) (j := n) (r := n + 6) (c := 6) (b := .zero (n + 6) 6) (by show 0 + (n + 6) ≤ n + 6; omega)
      (by show n + 6 ≤ n + 6; omega) rfl rfl, Res.bind_ok]
    rw [setBlock_ok (i := n) (j := 0) (r := 6) (c := n + 6) (b := .zero 6 (n + 6)) (by show n + 6 ≤ n + 6; omega) (by show 0 + (n + 6) ≤ n + 6; omega) rfl rfl]
    rfl
  rw [key, key]
  refine ⟨rfl, rfl, fun i j hi hj => ?_⟩
  have hi' : i < n + 6 := hi
  have hj' : j < n + 6 := hj
  dsimp only
  rw [← h.rows, ← h.cols]
  split
  · rfl
  · split
    · rfl
    · rw [if_pos ⟨by omega, by omega⟩, if_pos ⟨by omega, by omega⟩]
      exact h.at' i j (by omega) (by omega)

theorem expand_same {c c' : DMat K} (junk junk' : Nat → Nat → K) (m : FrameMgr K T) (h : Agree c c') (hm : 1 ≤ m.extrinsics.length + m.frames.length)
    (hr : 15 + (m.extrinsics.length + m.frames.length) * 6 - 6 ≤ c.rows) (hc : 15 + (m.extrinsics.length + m.frames.length) * 6 - 6 ≤ c.cols) :
    Both Agree (expand junk m c) (expand junk' m c') := by
  unfold expand
  dsimp only
  obtain ⟨n, hn⟩ : ∃ n, imuStateSize + (m.extrinsics.length + m.frames.length) * 6 = n + 6 := ⟨15 + (m.extrinsics.length + m.frames.length) * 6 - 6, by show 15 + _ = _; omega⟩
  have hn' : 15 + (m.extrinsics.length + m.frames.length) * 6 = n + 6 := hn
  rw [hn, Nat.add_sub_cancel, ← Res.bind_assoc, ← Res.bind_assoc]
  refine (clear_same junk junk' n h (by omega) (by omega)).bind (fun a a' _ _ ha => ?_)
  refine (ha.block _ _ _ _).bind (fun b b' hb _ hab => ?_)
  refine (ha.block _ _ _ _).bind (fun e e' he _ hae => ?_)
  obtain ⟨b1, b2⟩ := DMat.block_dims hb
  obtain ⟨e1, e2⟩ := DMat.block_dims he
  have hJ : (expandJ : DMat K).cols = imuStateSize := rfl
  have j1 := Agree.mulF (Agree.refl (expandJ : DMat K)) hab (by rw [hJ, b1])
  have j2 := Agree.mulF (Agree.refl (expandJ : DMat K)) hae (by rw [hJ, e1])
  refine (ha.setBlock j1 _ _ _ _).bind (fun f f' _ _ hf => ?_)
  refine (hf.setBlock j2 _ _ _ _).bind (fun k k' _ _ hk => ?_)
  refine (hk.block _ _ _ _).bind (fun l l' _ _ hl => ?_)
  refine (hk.setBlock hl.transpose _ _ _ _).bind (fun p p' _ _ hp => ?_)
  exact hp.setBlock (Agree.mulF j1 (Agree.refl _) (by show b.cols ≤ imuStateSize; rw [b2])) _ _ _ _

theorem reduce_same {c c' : DMat K} (junk junk' : Nat → Nat → K) (policy : MargPolicy) (m : FrameMgr K T) (h : Agree c c')
    (hr : 15 + (m.extrinsics.length * 6 + m.frames.length * 6) - 6 ≤ c.rows) (hc : 15 + (m.extrinsics.length * 6 + m.frames.length * 6) - 6 ≤ c.cols) :
    Both Agree (reduce junk policy m c) (reduce junk' policy m c') := by
  unfold reduce
  dsimp only
  cases policy with
  | noMarg => exact h
  | margNewest => exact h.resize junk junk' _ _ hr hc
  | margSubnew =>
    dsimp only
    refine (h.block _ _ _ _).bind (fun b b' _ _ hb => ?_)
    refine (h.setBlock hb _ _ _ _).bind (fun c1 c1' k1 _ h1 => ?_)
    refine (h1.block _ _ _ _).bind (fun b b' _ _ hb => ?_)
    refine (h1.setBlock hb _ _ _ _).bind (fun c2 c2' k2 _ h2 => ?_)
    refine (h2.block _ _ _ _).bind (fun b b' _ _ hb => ?_)
    refine (h2.setBlock hb _ _ _ _).bind (fun c3 c3' k3 _ h3 => ?_)
    obtain ⟨d1, d2⟩ := DMat.setBlock_dims k1
    obtain ⟨d3, d4⟩ := DMat.setBlock_dims k2
    obtain ⟨d5, d6⟩ := DMat.setBlock_dims k3
    exact h3.resize junk junk' _ _ (by rw [d5, d3, d1]; exact hr) (by rw [d6, d4, d2]; exact hc)
  | margOldest =>
    dsimp only
    refine (h.block _ _ _ _).bind (fun b b' _ _ hb => ?_)
    refine (h.setBlock hb _ _ _ _).bind (fun c1 c1' k1 _ h1 => ?_)
    refine (h1.setBlock hb.transpose _ _ _ _).bind (fun c2 c2' k2 _ h2 => ?_)
    rw [← h2.rows, ← h2.cols]
    refine (h2.block _ _ _ _).bind (fun b b' _ _ hb => ?_)
    refine (h2.setBlock hb _ _ _ _).bind (fun c3 c3' k3 _ h3 => ?_)
    obtain ⟨d1, d2⟩ := DMat.setBlock_dims k1
    obtain ⟨d3, d4⟩ := DMat.setBlock_dims k2
    obtain ⟨d5, d6⟩ := DMat.setBlock_dims k3
    exact h3.resize junk junk' _ _ (by rw [d5, d3, d1]; exact hr) (by rw [d6, d4, d2]; exact hc)

theorem storeCov_same {s s' : PropQueue K T} (hs : QSame s s') {c c' : DMat K} (h : Agree c c') : Both QSame (storeCov s c) (storeCov s' c') := by
  unfold storeCov
  have hit := hs.items
  cases hl : s.items with
  | nil =>
    rw [hl] at hit
    cases hl' : s'.items with
    | nil => rfl
    | cons b l' => rw [hl'] at hit; cases hit
  | cons a l =>
    rw [hl] at hit
    cases hl' : s'.items with
    | nil => rw [hl'] at hit; cases hit
    | cons b l' =>
      rw [hl'] at hit
      cases hit with
      | cons h1 h2 =>
        dsimp only
        rw [← h.cols]
        refine (h.block _ _ _ _).bind (fun x x' kx _ hx => ?_)
        refine (h.block _ _ _ _).bind (fun y y' ky _ hy => ?_)
        refine (h.block _ _ _ _).bind (fun z z' _ _ hz => ?_)
        exact ⟨.cons ⟨h1.st, h1.accel, h1.gyro, h1.ts, hx, hy, (DMat.block_dims kx).1, (DMat.block_dims ky).1, (DMat.block_dims kx).2⟩ h2, hz, hs.biasA, hs.biasG, hs.init, hs.F, hs.G, hs.Q,
          hs.f1, hs.f2, hs.g1⟩

/-- Updaters equal up to the entries outside the matrices; the list of selected features is left open (it is written before it is read). -/
structure USame (u u' : Upd K T) : Prop where
  q : QSame u.q u'.q
  w : u.w = u'.w
  policy : u.policy = u'.policy
  cov : Agree u.cov u'.cov
  pos : u.pos = u'.pos

theorem finish_same (env env' : Env K) (g : Vec3 K) {u u' : Upd K T} (h : USame u u') (hf : 1 ≤ u.w.frm.frames.length)
    (hr : 15 + (u.w.frm.extrinsics.length + u.w.frm.frames.length) * 6 - 6 ≤ u.cov.rows) (hc : 15 + (u.w.frm.extrinsics.length + u.w.frm.frames.length) * 6 - 6 ≤ u.cov.cols) :
    Both (fun x y => x.1 = y.1 ∧ USame x.2 y.2) (finish env g u) (finish env' g u') := by
  unfold finish
  rw [← h.w, ← h.policy]
  refine (expand_same env.junk env'.junk u.w.frm h.cov (by omega) hr hc).bind (fun a a' ka _ ha => ?_)
  obtain ⟨d1, d2⟩ := expand_dims _ _ _ _ ka
  refine (reduce_same env.junk env'.junk u.policy u.w.frm ha (by omega) (by omega)).bind (fun b b' _ _ hb => ?_)
  refine (storeCov_same h.q hb).bind (fun s s' _ _ hs => ?_)
  exact ⟨rfl, repropagate_same hs g, rfl, rfl, hb, h.pos⟩

/-- Measurement equation and Kalman step; `none` when there is no equation. -/
def solve (env : Env K) (noise : K) (P : DMat K) (w : Win K T) (fs : List Nat) : Res (Option (Kalman K)) := do
  let h ← measure env w fs
  match h with
  | none => .ok none
  | some hxr => do
    let k ← kalman env.ext noise P hxr
    .ok (some k)

/-- The part of `Update` after the selection of features. -/
def afterSelect (env : Env K) (noise : K) (g : Vec3 K) (u : Upd K T) : Res (Bool × Upd K T) :=
  if u.features.isEmpty then finish env g u
  else do
    let k ← solve env noise u.cov u.w u.features
    match k with
    | none => .ok (false, u)
    | some k => do
      let (s, m) ← correct k.dx u.q u.w.frm
      finish env g { u with q := s, w := { u.w with frm := m }, cov := k.cov }

theorem update_eq (env : Env K) (noise : K) (maxUsed : Nat) (g : Vec3 K) (u : Upd K T) (ts thr : T) :
    update env noise maxUsed g u ts thr =
      (if !(u.q.resetOrigin ts thr).2 then .ok (false, { u with q := (u.q.resetOrigin ts thr).1 })
      else do
        let policy ← decidePolicy u.w
        let c ← constructCov (u.q.resetOrigin ts thr).1 u.w.frm
        if !c.1 then .ok (false, { u with q := (u.q.resetOrigin ts thr).1, policy := policy, cov := c.2 })
        else do
          let m ← updateNewest (u.q.resetOrigin ts thr).1 u.w.frm
          if !m.1 then .ok (false, { u with q := (u.q.resetOrigin ts thr).1, policy := policy, cov := c.2, w := { u.w with frm := m.2 } })
          else do
            let x ← selectGood env maxUsed { u.w with frm := m.2 } u.pos
            afterSelect env noise g { u with q := (u.q.resetOrigin ts thr).1, policy := policy, cov := c.2, w := x.1, features := x.2.1, pos := x.2.2 }) := by
  unfold update
  generalize u.q.resetOrigin ts thr = q
  obtain ⟨s, found⟩ := q
  dsimp only
  split
  · rfl
  cases decidePolicy u.w with
  | ub t => rfl
  | ok policy =>
    simp only [Res.bind_ok]
    cases constructCov s u.w.frm with
    | ub t => rfl
    | ok c =>
      obtain ⟨good, c⟩ := c
      simp only [Res.bind_ok]
      split
      · rfl
      cases updateNewest s u.w.frm with
      | ub t => rfl
      | ok m =>
        obtain ⟨good', m⟩ := m
        simp only [Res.bind_ok]
        split
        · rfl
        cases selectGood env maxUsed { u.w with frm := m } u.pos with
        | ub t => rfl
        | ok x =>
          obtain ⟨w, fs, pos⟩ := x
          simp only [Res.bind_ok]
          unfold afterSelect
          dsimp only
          split
          · rfl
          unfold solve
          cases measure env w fs with
          | ub t => rfl
          | ok h =>
            cases h with
            | none => rfl
            | some hxr =>
              simp only [Res.bind_ok]
              unfold updateState
              dsimp only
              cases kalman env.ext noise c hxr with
              | ub t => rfl
              | ok k =>
                simp only [Res.bind_ok]
                cases correct k.dx s w.frm with
                | ub t => rfl
                | ok y => rfl

theorem kalman_dims (ext : Ext K) (noise : K) (P hxr : DMat K) (k : Kalman K) (h : kalman ext noise P hxr = .ok k) : k.cov.rows = P.rows ∧ k.cov.cols = P.cols := by
  unfold kalman at h
  obtain ⟨H, _, h⟩ := Res.bind_eq_ok.1 h
  obtain ⟨r, _, h⟩ := Res.bind_eq_ok.1 h
  obtain ⟨PHt, hp, h⟩ := Res.bind_eq_ok.1 h
  obtain ⟨S, _, h⟩ := Res.bind_eq_ok.1 h
  obtain ⟨gain, hg, h⟩ := Res.bind_eq_ok.1 h
  obtain ⟨dx, _, h⟩ := Res.bind_eq_ok.1 h
  obtain ⟨IKH, hi, h⟩ := Res.bind_eq_ok.1 h
  obtain ⟨nc, hn, h⟩ := Res.bind_eq_ok.1 h
  obtain ⟨sum, hs, h⟩ := Res.bind_eq_ok.1 h
  cases h
  have mdims : ∀ a b c : DMat K, a.mul b = .ok c → c.rows = a.rows ∧ c.cols = b.cols := by
    intro a b c hm
    unfold DMat.mul at hm
    split at hm
    · cases hm; exact ⟨rfl, rfl⟩
    · cases hm
  unfold DMat.add at hs
  split at hs
  · cases hs
    refine ⟨?_, (mdims _ _ _ hn).2⟩
    show nc.rows = _
    rw [(mdims _ _ _ hn).1]
    show IKH.rows = _
    rw [(mdims _ _ _ hi).1]
    show gain.rows = _
    rw [(mdims _ _ _ hg).1, (mdims _ _ _ hp).1]
  · cases hs

theorem solve_dims (env : Env K) (noise : K) (P : DMat K) (w : Win K T) (fs : List Nat) (k : Kalman K) (h : solve env noise P w fs = .ok (some k)) : k.cov.rows = P.rows ∧ k.cov.cols = P.cols := by
  unfold solve at h
  obtain ⟨hx, _, h⟩ := Res.bind_eq_ok.1 h
  cases hx with
  | none => cases h
  | some hxr =>
    dsimp only at h
    obtain ⟨k', hk, h⟩ := Res.bind_eq_ok.1 h
    cases h
    exact kalman_dims _ _ _ _ _ hk

theorem constructCov_dims (s : PropQueue K T) (m : FrameMgr K T) (g : Bool) (c : DMat K) (hf : 1 ≤ m.frames.length) (hN : (m.extrinsics.length + m.frames.length) * 6 < two32)
    (h : constructCov s m = .ok (g, c)) : c.rows = 15 + (m.extrinsics.length + m.frames.length) * 6 - 6 ∧ c.cols = 15 + (m.extrinsics.length + m.frames.length) * 6 - 6 := by
  unfold constructCov at h
  obtain ⟨i, _, h⟩ := Res.bind_eq_ok.1 h
  dsimp only at h
  have hsz : mul32 (sub32 (m.extrinsics.length + m.frames.length) 1) 6 = (m.extrinsics.length + m.frames.length) * 6 - 6 := by
    rw [sub32_of_le (by omega) (by omega), mul32_of_lt (by omega)]
    omega
  rw [hsz] at h
  split at h
  · cases h
    show 15 + _ = _ ∧ 15 + _ = _
    omega
  · obtain ⟨c1, h1, h⟩ := Res.bind_eq_ok.1 h
    obtain ⟨c2, h2, h⟩ := Res.bind_eq_ok.1 h
    obtain ⟨c3, h3, h⟩ := Res.bind_eq_ok.1 h
    obtain ⟨c4, h4, h⟩ := Res.bind_eq_ok.1 h
    cases h
    rw [(DMat.setBlock_dims h4).1, (DMat.setBlock_dims h3).1, (DMat.setBlock_dims h2).1, (DMat.setBlock_dims h1).1, (DMat.setBlock_dims h4).2, (DMat.setBlock_dims h3).2,
      (DMat.setBlock_dims h2).2, (DMat.setBlock_dims h1).2]
    show 15 + _ = _ ∧ 15 + _ = _
    omega

/-- Kalman results that agree as far as the rest of the update reads them. -/
def KSame : Option (Kalman K) → Option (Kalman K) → Prop
  | none, none => True
  | some k, some k' => Agree k.dx k'.dx ∧ Agree k.cov k'.cov
  | _, _ => False

/-- Two updates in different environments from backends that are equal up to entries outside the matrices end alike, if the selections and the Kalman steps agree. -/
theorem update_same (env env' : Env K) (noise : K) (maxUsed : Nat) (g : Vec3 K) {u u' : Upd K T} (ts thr : T) (h : USame u u') (hf : 1 ≤ u.w.frm.frames.length)
    (hN : (u.w.frm.extrinsics.length + u.w.frm.frames.length) * 6 < two32) (FR : List Nat → List Nat → Prop) (hFR : ∀ a b, FR a b → a.isEmpty = b.isEmpty)
    (hsel : ∀ m, updateNewest (u.q.resetOrigin ts thr).1 u.w.frm = .ok (true, m) →
      Both (fun x y => x.1 = y.1 ∧ FR x.2.1 y.2.1 ∧ x.2.2 = y.2.2) (selectGood env maxUsed { u.w with frm := m } u.pos) (selectGood env' maxUsed { u.w with frm := m } u.pos))
    (hsolve : ∀ m c c' w fs fs' pos, updateNewest (u.q.resetOrigin ts thr).1 u.w.frm = .ok (true, m) → constructCov (u.q.resetOrigin ts thr).1 u.w.frm = .ok (true, c) → Agree c c' →
      selectGood env maxUsed { u.w with frm := m } u.pos = .ok (w, fs, pos) → FR fs fs' → fs ≠ [] → Both KSame (solve env noise c w fs) (solve env' noise c' w fs')) :
    Both (fun x y => x.1 = y.1 ∧ USame x.2 y.2) (update env noise maxUsed g u ts thr) (update env' noise maxUsed g u' ts thr) := by
  rw [update_eq, update_eq]
  obtain ⟨r1, r2⟩ := resetOrigin_same h.q ts thr
  rw [← r2, ← h.w, ← h.pos]
  generalize u.q.resetOrigin ts thr = qa at *
  generalize u'.q.resetOrigin ts thr = qb at *
  split
  · exact ⟨rfl, r1, rfl, h.policy, h.cov, rfl⟩
  refine (Both.refl (R := Eq) (fun _ => rfl) _).bind (fun policy _ _ _ e => ?_); subst e
  refine (constructCov_same r1 u.w.frm).bind (fun ⟨gc, c⟩ ⟨gc', c'⟩ hc _ e => ?_)
  obtain ⟨e1, e2⟩ := e
  dsimp only at e1 e2 ⊢
  subst e1
  split
  · exact ⟨rfl, r1, rfl, rfl, e2, rfl⟩
  rename_i hgc
  obtain rfl : gc = true := by simpa using hgc
  rw [← updateNewest_same r1]
  refine (Both.refl (R := Eq) (fun _ => rfl) _).bind (fun ⟨gm, m⟩ _ hm _ e => ?_); subst e
  dsimp only
  split
  · exact ⟨rfl, r1, rfl, rfl, e2, rfl⟩
  rename_i hgm
  obtain rfl : gm = true := by simpa using hgm
  obtain ⟨n1, n2⟩ := updateNewest_length _ _ _ _ hm
  obtain ⟨d1, d2⟩ := constructCov_dims _ _ _ _ hf hN hc
  refine (hsel m hm).bind (fun ⟨w, fs, pos⟩ ⟨w', fs', pos'⟩ hs _ e => ?_)
  obtain ⟨s1, s2, s3⟩ := e
  dsimp only at s1 s2 s3 ⊢
  subst s1; subst s3
  have hw : w.frm = m := by
    unfold selectGood at hs
    obtain ⟨f, _, hs⟩ := Res.bind_eq_ok.1 hs
    obtain ⟨⟨w1, good1, pos1⟩, hl, hs⟩ := Res.bind_eq_ok.1 hs
    cases hs
    exact selectLoop_frm env _ _ _ _ _ _ _ hl
  unfold afterSelect
  dsimp only
  rw [← hFR _ _ s2]
  have hw1 : w.frm.extrinsics.length = u.w.frm.extrinsics.length := by rw [hw, n1]
  have hw2 : w.frm.frames.length = u.w.frm.frames.length := by rw [hw, n2]
  split
  · refine finish_same env env' g ⟨r1, rfl, rfl, e2, rfl⟩ ?_ ?_ ?_
    · show 1 ≤ w.frm.frames.length; omega
    · show 15 + (w.frm.extrinsics.length + w.frm.frames.length) * 6 - 6 ≤ c.rows; rw [hw1, hw2, d1]
    · show 15 + (w.frm.extrinsics.length + w.frm.frames.length) * 6 - 6 ≤ c.cols; rw [hw1, hw2, d2]
  · rename_i hfs
    refine (hsolve m c c' w fs fs' pos hm hc e2 hs s2 (by simpa using hfs)).bind (fun k k' hk _ e => ?_)
    cases k with
    | none =>
      cases k' with
      | none => exact ⟨rfl, r1, rfl, rfl, e2, rfl⟩
      | some k' => exact absurd e (by simp [KSame])
    | some k =>
      cases k' with
      | none => exact absurd e (by simp [KSame])
      | some k' =>
        obtain ⟨k1, k2⟩ := e
        dsimp only
        refine (correct_same k1 r1 w.frm).bind (fun ⟨s, m1⟩ ⟨s', m1'⟩ hco _ e => ?_)
        obtain ⟨q1, q2⟩ := e
        dsimp only at q1 q2 ⊢
        subst q2
        obtain ⟨l1, l2, -⟩ := correct_length _ _ _ _ _ hco
        obtain ⟨x1, x2⟩ := solve_dims _ _ _ _ _ _ hk
        refine finish_same env env' g ⟨q1, rfl, rfl, k2, rfl⟩ ?_ ?_ ?_
        · show 1 ≤ m1.frames.length; omega
        · show 15 + (m1.extrinsics.length + m1.frames.length) * 6 - 6 ≤ k.cov.rows; rw [x1, l1, l2, hw1, hw2, d1]
        · show 15 + (m1.extrinsics.length + m1.frames.length) * 6 - 6 ≤ k.cov.cols; rw [x2, l1, l2, hw1, hw2, d2]

end Update

end Generic
end Vio
