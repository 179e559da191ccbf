/-
The vision update in a world turned about gravity.
-/
import Verif.Lemmas.TurnSel
import Verif.Props.Motion
import Verif.Props.FilterCov

set_option linter.unusedSectionVars false

namespace Vio
open Spec WinSpec Update Res DMat PropQueue

variable {T : Type} [TimeOps T] [TimeCast T ℝ]

/-! ### Relations -/

/-- The turn of `n` pose components (extrinsics, then old frames). -/
noncomputable def poseTurn (r : Quat ℝ) (nc : Nat) (n : Nat) : Matrix (Fin n) (Fin n) ℝ := tM r.toMat (poseWorld nc) n

/-- An item of the queue in the turned world. -/
structure ItemTurned (r : Quat ℝ) (nc : Nat) (i i' : PropItem ℝ T) : Prop where
  moved : ItemMoved r 0 (poseTurn r nc) i i'
  rows : i'.imuCov.rows = 15
  exRows : i'.imuEx.rows = 15

/-- The queue in the turned world. -/
structure QTurned (r : Quat ℝ) (nc : Nat) (s s' : PropQueue ℝ T) : Prop where
  items : List.Forall₂ (ItemTurned r nc) s.items s'.items
  biasA : s'.biasA = s.biasA
  biasG : s'.biasG = s.biasG
  noise : s'.Q = s.Q
  exCam : PoseCovMoved (poseTurn r nc) s.exCamCov s'.exCamCov
  exSq : s'.exCamCov.cols = s'.exCamCov.rows
  third : s.exCamCov.rows % 3 = 0
  clean : Clean s
  clean' : Clean s'

/-- What the updater works on, in the turned world. -/
structure UTurned (r : Quat ℝ) (nc : Nat) (u u' : Upd ℝ T) : Prop where
  q : QTurned r nc u.q u'.q
  w : WinTurned r u.w u'.w
  policy : u'.policy = u.policy
  pos : u'.pos = u.pos
  features : u'.features = u.features

/-! ### The queue -/

theorem stepItem_turned {r : Quat ℝ} (hr : r.sqNorm = 1) {nc : Nat} {s s' : PropQueue ℝ T} (hs : Clean s) (hs' : Clean s') (ha : s'.biasA = s.biasA) (hg : s'.biasG = s.biasG) (hQ : s'.Q = s.Q)
    (hc : s.Q.cols = 12) {g : Vec3 ℝ} (hgr : r.rotate g = g) {i i' : PropItem ℝ T} (hi : ItemTurned r nc i i') (a w : Vec3 ℝ) (t : T) :
    ItemTurned r nc (s.stepItem g i a w t) (s'.stepItem g i' a w t) :=
  ⟨stepItem_moved r hr 0 _ s s' hs hs' ha hg hQ hc g hgr i i' hi.moved a w t, clean_rows s' hs' i' a w t, clean_rows s' hs' i' a w t⟩

theorem repropLoop_turned {r : Quat ℝ} (hr : r.sqNorm = 1) {nc : Nat} {g : Vec3 ℝ} (hgr : r.rotate g = g) (rest : List (PropItem ℝ T)) :
    ∀ (rest' : List (PropItem ℝ T)) (s s' : PropQueue ℝ T) (i i' : PropItem ℝ T), Clean s → Clean s' → s'.biasA = s.biasA → s'.biasG = s.biasG → s'.Q = s.Q → s.Q.cols = 12 →
      ItemTurned r nc i i' → List.Forall₂ (ItemTurned r nc) rest rest' → List.Forall₂ (ItemTurned r nc) (repropLoop g s i rest).2 (repropLoop g s' i' rest').2 := by
  induction rest with
  | nil => intro rest' s s' i i' _ _ _ _ _ _ _ h; cases h; exact .nil
  | cons j rest ih =>
    intro rest' s s' i i' hs hs' ha hg hQ hc hi h
    cases h with
    | cons hj hrest =>
      rename_i j' rest'
      have hk := stepItem_turned hr hs hs' ha hg hQ hc hgr hi j.accel j.gyro j.ts
      rw [repropLoop, repropLoop, hj.moved.accel, hj.moved.gyro, hj.moved.ts]
      exact .cons hk (ih rest' _ _ _ _ (clean_fill s _ hs _ _ _ _ _ _ rfl rfl) (clean_fill s' _ hs' _ _ _ _ _ _ rfl rfl) ha hg hQ hc hk hrest)

theorem repropagate_turned {r : Quat ℝ} (hr : r.sqNorm = 1) {nc : Nat} {g : Vec3 ℝ} (hgr : r.rotate g = g) {s s' : PropQueue ℝ T} (hc : s.Q.cols = 12) (h : QTurned r nc s s') :
    QTurned r nc (s.repropagate g) (s'.repropagate g) := by
  have hcl : Clean (s.repropagate g) ∧ Clean (s'.repropagate g) := ⟨clean_step 0 s (.reprop g) h.clean, clean_step 0 s' (.reprop g) h.clean'⟩
  obtain ⟨k1, k2, k3, k5, k4⟩ := C36_frame s g
  obtain ⟨k1', k2', k3', k5', k4'⟩ := C36_frame s' g
  refine ⟨?_, by rw [k2, k2', h.biasA], by rw [k3, k3', h.biasG], by rw [k4, k4', h.noise], by rw [k1, k1']; exact h.exCam, by rw [k1']; exact h.exSq, by rw [k1]; exact h.third, hcl.1, hcl.2⟩
  have hi := h.items
  cases hl : s.items with
  | nil =>
    rw [hl] at hi
    have hl' : s'.items = [] := by cases h' : s'.items with
      | nil => rfl
      | cons a b => rw [h'] at hi; cases hi
    simp [repropagate, hl, hl']
  | cons i rest =>
    rw [hl] at hi
    cases hl' : s'.items with
    | nil => rw [hl'] at hi; cases hi
    | cons i' rest' =>
      rw [hl'] at hi
      cases hi with
      | cons a b =>
        simp only [repropagate, hl, hl']
        exact .cons a (repropLoop_turned hr hgr _ _ _ _ _ _ h.clean h.clean' h.biasA h.biasG h.noise hc a b)

theorem resetLoop_turned {r : Quat ℝ} {nc : Nat} (t thr : T) {l l' : List (PropItem ℝ T)} (h : List.Forall₂ (ItemTurned r nc) l l') :
    List.Forall₂ (ItemTurned r nc) (resetLoop t thr l) (resetLoop t thr l') := by
  induction h with
  | nil => exact .nil
  | cons a b ih =>
    rw [resetLoop, resetLoop, a.moved.ts]
    split
    · exact ih
    · exact .cons a b

theorem resetOrigin_turned {r : Quat ℝ} {nc : Nat} {s s' : PropQueue ℝ T} (h : QTurned r nc s s') (t thr : T) :
    QTurned r nc (s.resetOrigin t thr).1 (s'.resetOrigin t thr).1 ∧ (s'.resetOrigin t thr).2 = (s.resetOrigin t thr).2 := by
  unfold resetOrigin
  rw [← forall₂_isEmpty h.items]
  split
  · exact ⟨h, rfl⟩
  · have hl := resetLoop_turned t thr h.items
    exact ⟨⟨hl, h.biasA, h.biasG, h.noise, h.exCam, h.exSq, h.third, h.clean, h.clean'⟩, by dsimp only; rw [← forall₂_isEmpty hl]⟩

/-! ### The joint covariance -/

theorem tt_shift (R : Mat3 ℝ) (nc : Nat) (x : Nat → ℝ) {i : Nat} (hi : 15 ≤ i) : turnTriples R (inWorld nc) x i = turnTriples R (poseWorld nc) (fun k => x (k + 15)) (i - 15) := by
  have e : i - 15 + 15 = i := by omega
  have := tt_reindex R (inWorld nc) (poseWorld nc) (fun k => k + 15) x (i - 15) (by
    have : (i - 15 + 15) / 3 = (i - 15) / 3 + 5 := by omega
    rw [this, inWorld_pose]) (by omega) (fun k hk => by omega)
  rw [this, e]

/-- The joint covariance of turned parts is the turned joint covariance. -/
theorem joint_turned (R : Mat3 ℝ) (nc m : Nat) (hm : m % 3 = 0) (P P' E E' X X' c c' : DMat ℝ)
    (hP : ∀ i j, i < 15 → j < 15 → P'.e i j = turnTriples R (inWorld nc) (fun k => turnTriples R (inWorld nc) (P.e k) j) i)
    (hE : ∀ i j, i < 15 → j < m → E'.e i j = turnTriples R (inWorld nc) (fun k => turnTriples R (poseWorld nc) (E.e k) j) i)
    (hX : ∀ i j, i < m → j < m → X'.e i j = turnTriples R (poseWorld nc) (fun k => turnTriples R (poseWorld nc) (X.e k) j) i)
    (hc : ∀ i j, i < 15 + m → j < 15 + m → c.e i j = jointEntry P.e E.e X.e i j) (hc' : ∀ i j, i < 15 + m → j < 15 + m → c'.e i j = jointEntry P'.e E'.e X'.e i j) :
    ∀ i j, i < 15 + m → j < 15 + m → c'.e i j = turnTriples R (inWorld nc) (fun k => turnTriples R (inWorld nc) (c.e k) j) i := by
  intro i j hi hj
  rw [hc' i j hi hj]
  unfold jointEntry
  by_cases h1 : i < 15
  · rw [if_pos h1]
    by_cases h2 : j < 15
    · rw [if_pos h2, hP i j h1 h2]
      refine tt_congr R _ (n := 15) rfl h1 (fun k hk => tt_congr R _ (n := 15) rfl h2 (fun l hl => ?_))
      rw [hc k l (by omega) (by omega)]
      unfold jointEntry
      rw [if_pos hk, if_pos hl]
    · rw [if_neg h2, hE i (j - 15) h1 (by omega)]
      refine tt_congr R _ (n := 15) rfl h1 (fun k hk => ?_)
      rw [tt_shift R nc _ (show 15 ≤ j by omega)]
      refine tt_congr R _ (n := m) hm (by omega) (fun l hl => ?_)
      rw [hc k (l + 15) (by omega) (by omega)]
      unfold jointEntry
      rw [if_pos hk, if_neg (by omega), Nat.add_sub_cancel]
  · rw [if_neg h1]
    by_cases h2 : j < 15
    · rw [if_pos h2, hE j (i - 15) h2 (by omega), tt_comm, tt_shift R nc _ (show 15 ≤ i by omega)]
      refine tt_congr R _ (n := m) hm (by omega) (fun k hk => tt_congr R _ (n := 15) rfl h2 (fun l hl => ?_))
      rw [hc (k + 15) l (by omega) (by omega)]
      unfold jointEntry
      rw [if_neg (by omega), if_pos hl, Nat.add_sub_cancel]
    · rw [if_neg h2, hX (i - 15) (j - 15) (by omega) (by omega), tt_shift R nc _ (show 15 ≤ i by omega)]
      refine tt_congr R _ (n := m) hm (by omega) (fun k hk => ?_)
      rw [tt_shift R nc _ (show 15 ≤ j by omega)]
      refine tt_congr R _ (n := m) hm (by omega) (fun l hl => ?_)
      rw [hc (k + 15) (l + 15) (by omega) (by omega)]
      unfold jointEntry
      rw [if_neg (by omega), if_neg (by omega), Nat.add_sub_cancel, Nat.add_sub_cancel]

/-- A turned covariance with its size: `n` components, symmetric. -/
structure CovPair (r : Quat ℝ) (nc n : Nat) (c c' : DMat ℝ) : Prop where
  turned : CovTurned r.toMat (inWorld nc) c c'
  rows : c.rows = n
  cols : c.cols = n
  symm : SymmTo n c.e

theorem CovPair.symm' {r : Quat ℝ} {nc n : Nat} {c c' : DMat ℝ} (h : CovPair r nc n c c') (hn : n % 3 = 0) : SymmTo n c'.e := by
  intro i j hi hj
  rw [h.turned.coef i j (by rw [h.rows]; exact hi) (by rw [h.cols]; exact hj), h.turned.coef j i (by rw [h.rows]; exact hj) (by rw [h.cols]; exact hi), tt_comm]
  exact tt_congr _ _ hn hj (fun k hk => tt_congr _ _ hn hi (fun l hl => h.symm l k hl hk))

theorem constructCov_turned {r : Quat ℝ} {s s' : PropQueue ℝ T} {m m' : FrameMgr ℝ T} (hs : QTurned r m.extrinsics.length s s') (hi : CovInv s) (he : m'.extrinsics = m.extrinsics)
    (hl : m'.frames.length = m.frames.length) (hf : m.frames ≠ []) (hlt : (m.extrinsics.length + m.frames.length) * 6 < two32) :
    Both (fun x y => y.1 = x.1 ∧ (x.1 = true → CovPair r m.extrinsics.length (9 + (m.extrinsics.length + m.frames.length) * 6) x.2 y.2)) (constructCov s m) (constructCov s' m') := by
  have hpos : 0 < m.frames.length := List.length_pos_iff.2 hf
  have hit := hs.items
  cases h1 : s.items with
  | nil =>
    rw [h1] at hit
    cases h2 : s'.items with
    | nil =>
      unfold constructCov
      rw [h1, h2]
      rfl
    | cons a b => rw [h2] at hit; cases hit
  | cons i0 rest =>
    rw [h1] at hit
    cases h2 : s'.items with
    | nil => rw [h2] at hit; cases hit
    | cons i0' rest' =>
      rw [h2] at hit
      have hi0 : ItemTurned r m.extrinsics.length i0 i0' := by cases hit; assumption
      have hj := hi.psd i0 (by rw [h1]; simp)
      have hf' : m'.frames ≠ [] := List.length_pos_iff.1 (by omega)
      have ex' : s'.exCamCov.rows = i0'.imuEx.cols := by rw [hs.exCam.rows, hi0.moved.exCols, hj.exCols]
      obtain ⟨gd, c, k1, k2, k3⟩ := C41_assembly s m i0 rest h1 hf hlt hj.rows hj.cols hj.exRows hj.exCols.symm (hi.sq.trans hj.exCols.symm)
      obtain ⟨gd', c', k1', k2', k3'⟩ := C41_assembly s' m' i0' rest' h2 hf' (by rw [he, hl]; exact hlt) hi0.rows hi0.moved.cols' hi0.exRows ex' (hs.exSq.trans ex')
      rw [k1, k1']
      rw [he, hl, hi0.moved.exCols, ← k2] at k2'
      have hgd : gd' = gd := by
        cases gd' <;> cases gd <;> simp_all
      refine ⟨hgd, fun hg => ?_⟩
      dsimp only at hg ⊢
      obtain ⟨l1, l2, l3⟩ := k3 hg
      obtain ⟨l1', l2', l3'⟩ := k3' (hgd.trans hg)
      have hsz : i0.imuEx.cols = 6 * (m.extrinsics.length + m.frames.length - 1) := by
        by_contra hcon
        rw [k2.2 hcon] at hg
        cases hg
      have hm3 : i0.imuEx.cols % 3 = 0 := by omega
      have hn : 15 + i0.imuEx.cols = 9 + (m.extrinsics.length + m.frames.length) * 6 := by omega
      have hX : i0.imuEx.cols = s.exCamCov.rows := hj.exCols
      have gP := (toM_turned r.toMat (inWorld m.extrinsics.length) (inWorld m.extrinsics.length) (m := 15) (n := 15) rfl rfl i0.imuCov i0'.imuCov).1 (by rw [turnM_eq]; exact hi0.moved.cov)
      have gE := (toM_turned r.toMat (inWorld m.extrinsics.length) (poseWorld m.extrinsics.length) (m := 15) (n := i0.imuEx.cols) rfl hm3 i0.imuEx i0'.imuEx).1 (by
        rw [turnM_eq]; exact hi0.moved.ex)
      have gX := (toM_turned r.toMat (poseWorld m.extrinsics.length) (poseWorld m.extrinsics.length) (m := s.exCamCov.rows) (n := s.exCamCov.rows) (by rw [← hX]; exact hm3) (by rw [← hX]; exact hm3)
        s.exCamCov s'.exCamCov).1 hs.exCam.cov
      rw [← hX] at gX
      have key := joint_turned r.toMat m.extrinsics.length i0.imuEx.cols hm3 i0.imuCov i0'.imuCov i0.imuEx i0'.imuEx s.exCamCov s'.exCamCov c c' gP gE gX
        (fun i j hi hj => l3 i j (by omega) (by omega)) (fun i j hi hj => l3' i j (by rw [l1', hi0.moved.exCols]; exact hi) (by rw [l2', hi0.moved.exCols]; exact hj))
      have hpsd := joint_psd i0 s.exCamCov c i0.imuEx.cols (fun i j h1 h2 => l3 i j (by omega) (by omega)) (by rw [hX]; exact hj.psd)
      refine ⟨⟨by rw [l1, l1', hi0.moved.exCols], by rw [l2, l2', hi0.moved.exCols], fun i j hi hj => key i j (by omega) (by omega)⟩, by omega, by omega, ?_⟩
      rw [← hn]
      exact psd_symmTo hpsd

/-- Choosing components. -/
theorem CovPair.reindex {r : Quat ℝ} {nc n n' : Nat} {c c' d d' : DMat ℝ} (h : CovPair r nc n c c') (hn' : n' % 3 = 0) (f : Nat → Nat) (hf : ∀ i, i < n' → f i < n)
    (hsel : ∀ i, i < n' → inWorld nc (i / 3) = inWorld nc (f i / 3)) (hmod : ∀ i, i < n' → f i % 3 = i % 3) (htri : ∀ i k, i < n' → k < 3 → f (3 * (i / 3) + k) = 3 * (f i / 3) + k)
    (r1 : d.rows = n') (r2 : d.cols = n') (r3 : d'.rows = n') (r4 : d'.cols = n') (hd : ∀ i j, i < n' → j < n' → d.e i j = c.e (f i) (f j))
    (hd' : ∀ i j, i < n' → j < n' → d'.e i j = c'.e (f i) (f j)) : CovPair r nc n' d d' := by
  refine ⟨⟨by rw [r1, r3], by rw [r2, r4], fun i j hi hj => ?_⟩, r1, r2, fun i j hi hj => ?_⟩
  · rw [r1] at hi
    rw [r2] at hj
    rw [hd' i j hi hj, h.turned.coef _ _ (by rw [h.rows]; exact hf i hi) (by rw [h.cols]; exact hf j hj)]
    rw [← tt_reindex r.toMat (inWorld nc) (inWorld nc) f (fun k => turnTriples r.toMat (inWorld nc) (c.e k) (f j)) i (hsel i hi) (hmod i hi) (fun k hk => htri i k hi hk)]
    refine tt_congr _ _ hn' hi (fun k hk => ?_)
    rw [← tt_reindex r.toMat (inWorld nc) (inWorld nc) f (c.e (f k)) j (hsel j hj) (hmod j hj) (fun l hl => htri j l hj hl)]
    exact tt_congr _ _ hn' hj (fun l hl => (hd k l hk hl).symm)
  · rw [hd i j hi hj, hd j i hj hi, h.symm _ _ (hf i hi) (hf j hj)]

theorem expand_turned {r : Quat ℝ} (junk : Nat → Nat → ℝ) {m m' : FrameMgr ℝ T} (he : m'.extrinsics = m.extrinsics) (hl : m'.frames.length = m.frames.length) (hf : m.frames ≠ []) {c c' : DMat ℝ}
    (h : CovPair r m.extrinsics.length (9 + (m.extrinsics.length + m.frames.length) * 6) c c') :
    Both (CovPair r m.extrinsics.length (15 + (m.extrinsics.length + m.frames.length) * 6)) (expand junk m c) (expand junk m' c') := by
  have hpos : 0 < m.frames.length := List.length_pos_iff.2 hf
  obtain ⟨d, e1, e2, e3, e4⟩ := C42_entries junk m c _ hf (show 9 + (m.extrinsics.length + m.frames.length) * 6 + 6 = _ by omega) h.rows h.cols h.symm
  obtain ⟨d', f1, f2, f3, f4⟩ := C42_entries junk m' c' (9 + (m.extrinsics.length + m.frames.length) * 6) (List.length_pos_iff.1 (by omega)) (by rw [he, hl]; omega)
    (by rw [h.turned.rows, h.rows]) (by rw [h.turned.cols, h.cols]) (h.symm' (by omega))
  rw [e1, f1]
  have en : 9 + (m.extrinsics.length + m.frames.length) * 6 + 6 = 15 + (m.extrinsics.length + m.frames.length) * 6 := by omega
  rw [en] at e2 e3 e4 f2 f3 f4
  refine h.reindex (by omega) (cloneIdx (9 + (m.extrinsics.length + m.frames.length) * 6)) (fun i hi => cloneIdx_lt _ _ (by omega) (by omega)) ?_ ?_ ?_ e2 e3 f2 f3 e4 f4
  · intro i hi
    unfold cloneIdx
    split
    · rfl
    · split
      · have h1 : (i - (9 + (m.extrinsics.length + m.frames.length) * 6)) / 3 = 0 := by omega
        have h2 : inWorld m.extrinsics.length (i / 3) = true := by
          simp only [inWorld, Bool.or_eq_true, Bool.and_eq_true, decide_eq_true_eq, beq_iff_eq]
          right; omega
        rw [h1, h2]; rfl
      · have h1 : (6 + (i - (9 + (m.extrinsics.length + m.frames.length) * 6) - 3)) / 3 = 2 := by omega
        have h2 : inWorld m.extrinsics.length (i / 3) = false := by
          simp only [inWorld, Bool.or_eq_false_iff, Bool.and_eq_false_iff, decide_eq_false_iff_not, beq_eq_false_iff_ne]
          constructor
          · omega
          · right; omega
        rw [h1, h2, inWorld_imu _ 2 (by omega)]; rfl
  · intro i hi
    unfold cloneIdx
    split_ifs <;> omega
  · intro i k hi hk
    unfold cloneIdx
    split_ifs <;> omega

/-- Number of components left. -/
def leftOver (policy : MargPolicy) (n : Nat) : Nat := if policy = .noMarg then n else n - 6

theorem reduce_turned {r : Quat ℝ} (junk : Nat → Nat → ℝ) (policy : MargPolicy) {m m' : FrameMgr ℝ T} (he : m'.extrinsics = m.extrinsics) (hl : m'.frames.length = m.frames.length)
    (h2 : policy = .noMarg ∨ 2 ≤ m.frames.length) {c c' : DMat ℝ} (h : CovPair r m.extrinsics.length (15 + (m.extrinsics.length + m.frames.length) * 6) c c') :
    Both (CovPair r m.extrinsics.length (leftOver policy (15 + (m.extrinsics.length + m.frames.length) * 6))) (reduce junk policy m c) (reduce junk policy m' c') := by
  by_cases hp : policy = .noMarg
  · subst hp
    exact h
  · have hlen := h2.resolve_left hp
    obtain ⟨d, hd, hdl⟩ : ∃ d, dropIndex m.frames.length policy = some d ∧ d < m.frames.length := by
      cases policy with
      | noMarg => exact absurd rfl hp
      | margOldest => exact ⟨0, rfl, by omega⟩
      | margSubnew => exact ⟨_, rfl, by omega⟩
      | margNewest => exact ⟨_, rfl, by omega⟩
    obtain ⟨b, e1, e2, e3, e4⟩ := C43_reduce junk policy m c _ d hlen rfl h.rows h.cols h.symm hd
    obtain ⟨b', f1, f2, f3, f4⟩ := C43_reduce junk policy m' c' (15 + (m.extrinsics.length + m.frames.length) * 6) d (by omega) (by rw [he, hl]) (by rw [h.turned.rows, h.rows])
      (by rw [h.turned.cols, h.cols]) (h.symm' (by omega)) (by rw [hl]; exact hd)
    rw [he] at f4
    rw [e1, f1]
    unfold leftOver
    rw [if_neg hp]
    refine h.reindex (by omega) (skipIdx (15 + m.extrinsics.length * 6 + d * 6)) ?_ ?_ ?_ ?_ e2 e3 f2 f3 e4 f4
    · intro i hi
      unfold skipIdx
      split_ifs <;> omega
    · intro i hi
      unfold skipIdx
      split
      · rfl
      · have e : (i + 6) / 3 = i / 3 + 2 := by omega
        rw [e]
        have h5 : 5 + 2 * m.extrinsics.length ≤ i / 3 := by omega
        unfold inWorld
        rw [decide_eq_true h5, decide_eq_true (show 5 + 2 * m.extrinsics.length ≤ i / 3 + 2 by omega), decide_eq_false (show ¬ i / 3 < 2 by omega),
          decide_eq_false (show ¬ i / 3 + 2 < 2 by omega)]
        have : (i / 3 + 2 - 5) % 2 = (i / 3 - 5) % 2 := by omega
        rw [this]
    · intro i hi
      unfold skipIdx
      split_ifs <;> omega
    · intro i k hi hk
      unfold skipIdx
      split_ifs <;> omega

theorem storeCov_turned {r : Quat ℝ} {nc n : Nat} {s s' : PropQueue ℝ T} (hs : QTurned r nc s s') {c c' : DMat ℝ} (h : CovPair r nc n c c') (hn : n % 3 = 0) (h15 : 15 ≤ n) :
    Both (fun x y => QTurned r nc x y ∧ x.Q = s.Q) (storeCov s c) (storeCov s' c') := by
  have hit := hs.items
  unfold storeCov
  cases h1 : s.items with
  | nil =>
    rw [h1] at hit
    cases h2 : s'.items with
    | nil => rfl
    | cons a b => rw [h2] at hit; cases hit
  | cons i0 rest =>
    rw [h1] at hit
    cases h2 : s'.items with
    | nil => rw [h2] at hit; cases hit
    | cons i0' rest' =>
      rw [h2] at hit
      obtain ⟨hi0, hrest⟩ : ItemTurned r nc i0 i0' ∧ List.Forall₂ (ItemTurned r nc) rest rest' := by cases hit; exact ⟨by assumption, by assumption⟩
      dsimp only
      have hr1 := h.rows
      have hc1 := h.cols
      have hr2 : c'.rows = n := by rw [h.turned.rows, h.rows]
      have hc2 : c'.cols = n := by rw [h.turned.cols, h.cols]
      rw [hc1, hc2]
      simp only [imuStateSize]
      obtain ⟨P, p1, p2, p3, p4⟩ := DMat.block_spec (a := c) (i := 0) (j := 0) (r := 15) (c := 15) (by omega) (by omega)
      obtain ⟨P', p1', p2', p3', p4'⟩ := DMat.block_spec (a := c') (i := 0) (j := 0) (r := 15) (c := 15) (by omega) (by omega)
      obtain ⟨E, q1, q2, q3, q4⟩ := DMat.block_spec (a := c) (i := 0) (j := 15) (r := 15) (c := n - 15) (by omega) (by omega)
      obtain ⟨E', q1', q2', q3', q4'⟩ := DMat.block_spec (a := c') (i := 0) (j := 15) (r := 15) (c := n - 15) (by omega) (by omega)
      obtain ⟨X, x1, x2, x3, x4⟩ := DMat.block_spec (a := c) (i := 15) (j := 15) (r := n - 15) (c := n - 15) (by omega) (by omega)
      obtain ⟨X', x1', x2', x3', x4'⟩ := DMat.block_spec (a := c') (i := 15) (j := 15) (r := n - 15) (c := n - 15) (by omega) (by omega)
      rw [p1, p1', Res.bind_ok, Res.bind_ok, q1, q1', Res.bind_ok, Res.bind_ok, x1, x1', Res.bind_ok, Res.bind_ok]
      have hco : ∀ i j, i < n → j < n → c'.e i j = turnTriples r.toMat (inWorld nc) (fun k => turnTriples r.toMat (inWorld nc) (c.e k) j) i :=
        fun i j hi hj => h.turned.coef i j (by omega) (by omega)
      have eP : P'.toM 15 15 = turnM r * P.toM 15 15 * (turnM r).transpose := by
        rw [← turnM_eq r nc]
        refine (toM_turned r.toMat _ _ rfl rfl P P').2 (fun i j hi hj => ?_)
        rw [p4', Nat.zero_add, Nat.zero_add, hco i j (by omega) (by omega)]
        refine tt_congr _ _ (n := 15) rfl hi (fun k _ => tt_congr _ _ (n := 15) rfl hj (fun l _ => ?_))
        rw [p4, Nat.zero_add, Nat.zero_add]
      have eE : E'.toM 15 (n - 15) = turnM r * E.toM 15 (n - 15) * (poseTurn r nc (n - 15)).transpose := by
        rw [← turnM_eq r nc]
        refine (toM_turned r.toMat _ _ rfl (by omega) E E').2 (fun i j hi hj => ?_)
        rw [q4', Nat.zero_add, hco i (15 + j) (by omega) (by omega)]
        refine tt_congr _ _ (n := 15) rfl hi (fun k _ => ?_)
        rw [tt_shift _ _ _ (show 15 ≤ 15 + j by omega), Nat.add_sub_cancel_left]
        refine tt_congr _ _ (n := n - 15) (by omega) hj (fun l _ => ?_)
        rw [q4, Nat.zero_add, Nat.add_comm l 15]
      have eX : X'.toM (n - 15) (n - 15) = poseTurn r nc (n - 15) * X.toM (n - 15) (n - 15) * (poseTurn r nc (n - 15)).transpose := by
        refine (toM_turned r.toMat _ _ (by omega) (by omega) X X').2 (fun i j hi hj => ?_)
        rw [x4', hco (15 + i) (15 + j) (by omega) (by omega), tt_shift _ _ _ (show 15 ≤ 15 + i by omega), Nat.add_sub_cancel_left]
        refine tt_congr _ _ (n := n - 15) (by omega) hi (fun k _ => ?_)
        rw [tt_shift _ _ _ (show 15 ≤ 15 + j by omega), Nat.add_sub_cancel_left]
        refine tt_congr _ _ (n := n - 15) (by omega) hj (fun l _ => ?_)
        rw [x4, Nat.add_comm l 15, Nat.add_comm k 15]
      refine ⟨⟨List.Forall₂.cons ⟨⟨hi0.moved.st, hi0.moved.unit, hi0.moved.accel, hi0.moved.gyro, hi0.moved.ts, p3, p3', eP, by dsimp only; rw [q3, q3'], ?_⟩, p2', q2'⟩ hrest, hs.biasA, hs.biasG, hs.noise,
        ⟨by dsimp only; rw [x2, x2'], ?_⟩, by dsimp only; rw [x2', x3'], by dsimp only; omega, hs.clean, hs.clean'⟩, rfl⟩
      · dsimp only; rw [q3]; exact eE
      · dsimp only; rw [x2]; exact eX

theorem finish_turned {r : Quat ℝ} (hr : r.sqNorm = 1) {nc : Nat} {env env' : Env ℝ} (hj : env'.junk = env.junk) {g : Vec3 ℝ} (hg : r.rotate g = g) {u u' : Upd ℝ T} (hu : UTurned r nc u u')
    (hnc : u.w.frm.extrinsics.length = nc) (hf : u.w.frm.frames ≠ []) (h2 : u.policy = .noMarg ∨ 2 ≤ u.w.frm.frames.length) (hQ : u.q.Q.cols = 12)
    (hc : CovPair r nc (9 + (nc + u.w.frm.frames.length) * 6) u.cov u'.cov) :
    Both (fun x y => y.1 = x.1 ∧ UTurned r nc x.2 y.2) (finish env g u) (finish env' g u') := by
  subst hnc
  unfold finish
  have hpos : 0 < u.w.frm.frames.length := List.length_pos_iff.2 hf
  have hl := hu.w.frm.frames.length_eq.symm
  rw [hj, hu.policy]
  refine (expand_turned env.junk hu.w.frm.extrinsics hl hf hc).bind (fun a a' _ _ ha => ?_)
  refine (reduce_turned env.junk u.policy hu.w.frm.extrinsics hl h2 ha).bind (fun b b' _ _ hb => ?_)
  have hn : leftOver u.policy (15 + (u.w.frm.extrinsics.length + u.w.frm.frames.length) * 6) % 3 = 0 ∧ 15 ≤ leftOver u.policy (15 + (u.w.frm.extrinsics.length + u.w.frm.frames.length) * 6) := by
    unfold leftOver
    split <;> omega
  refine (storeCov_turned hu.q hb hn.1 hn.2).bind (fun s s' _ _ hs => ?_)
  exact ⟨rfl, ⟨repropagate_turned hr hg (by rw [hs.2]; exact hQ) hs.1, hu.w, rfl, hu.pos, hu.features⟩⟩

/-! ### The correction -/

theorem seg_turned {r : Quat ℝ} {nc n : Nat} {d d' : DMat ℝ} (h1 : d.rows = n) (h2 : d'.rows = n) (h3 : d.cols = 1) (h4 : d'.cols = 1)
    (h : ∀ i, i < n → d'.e i 0 = turnTriples r.toMat (inWorld nc) (fun l => d.e l 0) i) (b : Nat) :
    Both (fun v v' => v' = if inWorld nc b then r.rotate v else v) (d.segment3 (3 * b)) (d'.segment3 (3 * b)) := by
  unfold DMat.segment3
  rw [h1, h2, h3, h4]
  by_cases hc : 3 * b + 3 ≤ n ∧ 0 < 1
  · rw [if_pos hc, if_pos hc]
    show _ = _
    have e0 : 3 * b / 3 = b := by omega
    have e1 : (3 * b + 1) / 3 = b := by omega
    have e2 : (3 * b + 2) / 3 = b := by omega
    have m0 : 3 * b % 3 = 0 := by omega
    have m1 : (3 * b + 1) % 3 = 1 := by omega
    have m2 : (3 * b + 2) % 3 = 2 := by omega
    rw [h _ (show 3 * b < n by omega), h _ (show 3 * b + 1 < n by omega), h _ (show 3 * b + 2 < n by omega)]
    simp only [turnTriples, e0, e1, e2, m0, m1, m2]
    split
    · rw [← Quat.toMat_mulVec]
      rfl
    · rfl
  · rw [if_neg hc, if_neg hc]
    rfl

theorem corrQuat_unit {q : Quat ℝ} (hq : q.sqNorm = 1) (t : Vec3 ℝ) : (corrQuat q t).sqNorm = 1 := by
  refine Quat.sqNorm_normalized _ ?_
  rw [Quat.sqNorm_mul, hq, one_mul]
  exact lt_of_lt_of_le one_pos (Quat.sqNorm_deltaQ_pos _)

theorem corrQuat_turned {r q : Quat ℝ} (hr : r.sqNorm = 1) (hq : q.sqNorm = 1) (t : Vec3 ℝ) : corrQuat (r.mul q) t = r.mul (corrQuat q t) := by
  unfold corrQuat
  rw [Quat.mul_assoc']
  refine unit_mul_normalized r _ hr ?_
  rw [Quat.sqNorm_mul, hq, one_mul]
  exact lt_of_lt_of_le one_pos (Quat.sqNorm_deltaQ_pos _)

theorem inWorld_cam {nc b : Nat} (h : 5 ≤ b) (h' : b < 5 + 2 * nc) : inWorld nc b = false := by
  simp only [inWorld, Bool.or_eq_false_iff, Bool.and_eq_false_iff, decide_eq_false_iff_not, beq_eq_false_iff_ne]
  exact ⟨by omega, .inl (by omega)⟩

theorem corrExt_turned {r : Quat ℝ} {nc n : Nat} {d d' : DMat ℝ} (h1 : d.rows = n) (h2 : d'.rows = n) (h3 : d.cols = 1) (h4 : d'.cols = 1)
    (h : ∀ i, i < n → d'.e i 0 = turnTriples r.toMat (inWorld nc) (fun l => d.e l 0) i) (l : List (Extrinsic ℝ)) : ∀ i, i + l.length ≤ nc → (∀ e ∈ l, e.q.sqNorm = 1) →
    Both (fun x y => y = x ∧ ∀ e ∈ x, e.q.sqNorm = 1) (corrExt d i l) (corrExt d' i l) := by
  induction l with
  | nil => intro i _ _; exact ⟨rfl, fun e he => absurd he (by simp)⟩
  | cons e l ih =>
    intro i hi he
    rw [List.length_cons] at hi
    rw [corrExt, corrExt]
    have c1 : imuStateSize + i * 6 = 3 * (5 + 2 * i) := by simp only [imuStateSize]; omega
    have c2 : imuStateSize + i * 6 + 3 = 3 * (6 + 2 * i) := by simp only [imuStateSize]; omega
    rw [c2, c1]
    refine (seg_turned h1 h2 h3 h4 h (5 + 2 * i)).bind (fun v v' _ _ hv => ?_)
    rw [inWorld_cam (by omega) (by omega)] at hv
    refine (seg_turned h1 h2 h3 h4 h (6 + 2 * i)).bind (fun v1 v1' _ _ hv1 => ?_)
    rw [inWorld_cam (by omega) (by omega)] at hv1
    have hv : v' = v := hv
    have hv1 : v1' = v1 := hv1
    subst hv hv1
    refine (ih (i + 1) (by omega) (fun e he' => he e (List.mem_cons_of_mem _ he'))).bind (fun a b _ _ hab => ?_)
    obtain ⟨rfl, hab⟩ := hab
    refine ⟨rfl, fun x hx => ?_⟩
    rcases List.mem_cons.1 hx with rfl | hx
    · exact corrQuat_unit (he e (by simp)) _
    · exact hab x hx

theorem corrFrames_turned {r : Quat ℝ} (hr : r.sqNorm = 1) {nc n : Nat} {d d' : DMat ℝ} (h1 : d.rows = n) (h2 : d'.rows = n) (h3 : d.cols = 1) (h4 : d'.cols = 1)
    (h : ∀ i, i < n → d'.e i 0 = turnTriples r.toMat (inWorld nc) (fun l => d.e l 0) i) (backId : Nat) {st st' : Motion ℝ} (hst : st' = Reckon.move r 0 0 st) (hu : st.q.sqNorm = 1)
    {l l' : List (Frame ℝ T)} (hl : List.Forall₂ (FrameTurned r) l l') : ∀ i,
    Both (List.Forall₂ (FrameTurned r)) (corrFrames d backId (imuStateSize + nc * 6) st i l) (corrFrames d' backId (imuStateSize + nc * 6) st' i l') := by
  induction hl with
  | nil => intro i; exact List.Forall₂.nil
  | cons hf hrest ih =>
    rename_i f f' l l'
    intro i
    rw [corrFrames, corrFrames, hf.id]
    split
    · subst hst
      refine List.Forall₂.cons ⟨hf.addr, hf.features, rfl, hf.ts, ?_, ?_, rfl, hu⟩ hrest
      · show r.rotate st.p + 0 = _
        apply Vec3.ext <;> simp
      · show r.rotate st.v + 0 = _
        apply Vec3.ext <;> simp
    · have c1 : imuStateSize + nc * 6 + i * 6 = 3 * (5 + 2 * nc + 2 * i) := by simp only [imuStateSize]; omega
      have c2 : imuStateSize + nc * 6 + i * 6 + 3 = 3 * (6 + 2 * nc + 2 * i) := by simp only [imuStateSize]; omega
      have s1 : inWorld nc (5 + 2 * nc + 2 * i) = true := by
        simp only [inWorld, Bool.or_eq_true, Bool.and_eq_true, decide_eq_true_eq, beq_iff_eq]
        right; omega
      have s2 : inWorld nc (6 + 2 * nc + 2 * i) = false := by
        simp only [inWorld, Bool.or_eq_false_iff, Bool.and_eq_false_iff, decide_eq_false_iff_not, beq_eq_false_iff_ne]
        exact ⟨by omega, .inr (by omega)⟩
      rw [c2, c1]
      refine (seg_turned h1 h2 h3 h4 h (5 + 2 * nc + 2 * i)).bind (fun v v' _ _ hv => ?_)
      refine (seg_turned h1 h2 h3 h4 h (6 + 2 * nc + 2 * i)).bind (fun v1 v1' _ _ hv1 => ?_)
      rw [s1] at hv
      rw [s2] at hv1
      have hv : v' = r.rotate v := hv
      have hv1 : v1' = v1 := hv1
      subst hv hv1
      refine (ih (i + 1)).bind (fun a b _ _ hab => ?_)
      refine List.Forall₂.cons ⟨hf.addr, hf.features, rfl, hf.ts, ?_, hf.v, ?_, corrQuat_unit hf.unit _⟩ hab
      · show f'.p + r.rotate v = _
        rw [hf.p, ← Quat.rotate_add]
      · show corrQuat f'.q v1' = _
        rw [hf.q, corrQuat_turned hr hf.unit]

theorem correct_turned {r : Quat ℝ} (hr : r.sqNorm = 1) {n : Nat} {m m' : FrameMgr ℝ T} (hm : FramesTurned r m m') {s s' : PropQueue ℝ T} (hs : QTurned r m.extrinsics.length s s') {d d' : DMat ℝ}
    (h1 : d.rows = n) (h2 : d'.rows = n) (h3 : d.cols = 1) (h4 : d'.cols = 1) (h : ∀ i, i < n → d'.e i 0 = turnTriples r.toMat (inWorld m.extrinsics.length) (fun l => d.e l 0) i) :
    Both (fun x y => QTurned r m.extrinsics.length x.1 y.1 ∧ FramesTurned r x.2 y.2 ∧ x.1.Q = s.Q) (correct d s m) (correct d' s' m') := by
  have hit := hs.items
  unfold correct
  cases k1 : s.items with
  | nil =>
    rw [k1] at hit
    cases k2 : s'.items with
    | nil => rfl
    | cons a b => rw [k2] at hit; cases hit
  | cons i0 rest =>
    rw [k1] at hit
    cases k2 : s'.items with
    | nil => rw [k2] at hit; cases hit
    | cons i0' rest' =>
      rw [k2] at hit
      obtain ⟨hi0, hrest⟩ : ItemTurned r m.extrinsics.length i0 i0' ∧ List.Forall₂ (ItemTurned r m.extrinsics.length) rest rest' := by cases hit; exact ⟨by assumption, by assumption⟩
      dsimp only
      have sg := fun b => seg_turned (r := r) h1 h2 h3 h4 h b
      refine (sg 0).bind (fun dp dp' _ _ hp => ?_)
      refine (sg 1).bind (fun dv dv' _ _ hv => ?_)
      refine (sg 2).bind (fun dr dr' _ _ hrr => ?_)
      refine (sg 3).bind (fun da da' _ _ hda => ?_)
      refine (sg 4).bind (fun dg dg' _ _ hdg => ?_)
      rw [inWorld_imu _ _ (by omega)] at hp hv hrr hda hdg
      have hp : dp' = r.rotate dp := hp
      have hv : dv' = r.rotate dv := hv
      have hrr : dr' = dr := hrr
      have hda : da' = da := hda
      have hdg : dg' = dg := hdg
      subst hp hv hrr hda hdg
      have est : (⟨i0'.st.p + r.rotate dp, i0'.st.v + r.rotate dv, corrQuat i0'.st.q dr'⟩ : Motion ℝ) =
          Reckon.move r 0 0 ⟨i0.st.p + dp, i0.st.v + dv, corrQuat i0.st.q dr'⟩ := by
        rw [hi0.moved.st]
        unfold Reckon.move
        dsimp only
        rw [corrQuat_turned hr hi0.moved.unit, Quat.rotate_add, Quat.rotate_add]
        congr 1 <;> apply Vec3.ext <;> simp
      rw [hm.extrinsics]
      refine (corrExt_turned h1 h2 h3 h4 h m.extrinsics 0 (by omega) hm.mounted).bind (fun ex ex' hex _ hexx => ?_)
      obtain ⟨rfl, hexu⟩ := hexx
      refine (back_rel hm.frames).bind (fun b b' _ _ hb => ?_)
      rw [hb.id]
      have hunit : (corrQuat i0.st.q dr').sqNorm = 1 := corrQuat_unit hi0.moved.unit _
      refine (corrFrames_turned hr h1 h2 h3 h4 h b.id est hunit hm.frames 0).bind (fun fs fs' _ _ hfs => ?_)
      refine ⟨⟨List.Forall₂.cons ⟨⟨est, hunit, hi0.moved.accel, hi0.moved.gyro, hi0.moved.ts, hi0.moved.cols, hi0.moved.cols', hi0.moved.cov, hi0.moved.exCols, hi0.moved.ex⟩, hi0.rows, hi0.exRows⟩ hrest,
        ?_, ?_, hs.noise, hs.exCam, hs.exSq, hs.third, hs.clean, hs.clean'⟩, ⟨hfs, hm.nextAddr, rfl, hexu, hm.maxWindowSize, hm.minTracked, hm.minParallax, hm.maxTranslation⟩, rfl⟩
      · show s'.biasA + da' = s.biasA + da'
        rw [hs.biasA]
      · show s'.biasG + dg' = s.biasG + dg'
        rw [hs.biasG]

/-! ### Key frames -/

theorem forall₂_reverse {α β : Type} {R : α → β → Prop} {l : List α} {l' : List β} (h : List.Forall₂ R l l') : List.Forall₂ R l.reverse l'.reverse := List.rel_reverse h

theorem findPrev_turned {r : Quat ℝ} (addr : Nat) {l l' : List (Frame ℝ T)} (h : List.Forall₂ (FrameTurned r) l l') :
    Option.Rel (Option.Rel (FrameTurned r)) (FrameMgr.findPrev addr l) (FrameMgr.findPrev addr l') := by
  induction h with
  | nil => exact .none
  | cons hf hrest ih =>
    rw [FrameMgr.findPrev, FrameMgr.findPrev, hf.addr]
    split
    · exact .some (forall₂_head hrest)
    · exact ih

theorem dot_turn (r : Quat ℝ) (hr : r.sqNorm = 1) (u v : Vec3 ℝ) : (r.rotate u).dot (r.rotate v) = u.dot v := by
  rw [← Quat.toMat_mulVec, ← Quat.toMat_mulVec]
  have h := rotM_orth r hr
  generalize r.toMat = R at h
  obtain ⟨⟨a, b, c⟩, ⟨d, e, f⟩, ⟨g, i, j⟩⟩ := R
  obtain ⟨u1, u2, u3⟩ := u
  obtain ⟨v1, v2, v3⟩ := v
  simp only [Mat3.mul, Mat3.mulVec, Mat3.transpose, Vec3.dot, Mat3.one, Mat3.mk.injEq, Vec3.mk.injEq] at h ⊢
  obtain ⟨⟨h1, h2, h3⟩, ⟨h4, h5, h6⟩, ⟨h7, h8, h9⟩⟩ := h
  linear_combination u1 * v1 * h1 + u1 * v2 * h2 + u1 * v3 * h3 + u2 * v1 * h4 + u2 * v2 * h5 + u2 * v3 * h6 + u3 * v1 * h7 + u3 * v2 * h8 + u3 * v3 * h9

theorem norm_turn (r : Quat ℝ) (hr : r.sqNorm = 1) (v : Vec3 ℝ) : (r.rotate v).norm = v.norm := by
  have e : (r.rotate v).sqNorm = v.sqNorm := dot_turn r hr v v
  show ScalarFn.sqrt _ = ScalarFn.sqrt _
  rw [e]

theorem isKeyFrame_turned {r : Quat ℝ} (hr : r.sqNorm = 1) {w w' : Win ℝ T} (hw : WinTurned r w w') {f f' : Frame ℝ T} (hf : FrameTurned r f f') :
    w'.frm.isKeyFrame w'.feat (some f') = w.frm.isKeyFrame w.feat (some f) := by
  unfold FrameMgr.isKeyFrame
  dsimp only
  rw [hf.addr]
  have hp := findPrev_turned f.addr (forall₂_reverse hw.frm.frames)
  revert hp
  generalize FrameMgr.findPrev f.addr w.frm.frames.reverse = a
  generalize FrameMgr.findPrev f.addr w'.frm.frames.reverse = b
  intro hp
  cases hp with
  | none => rfl
  | some h =>
    cases h with
    | none => rfl
    | some h =>
      rename_i pre pre'
      dsimp only
      have ht : FrameMgr.trackStats w'.feat f' pre' = FrameMgr.trackStats w.feat f pre := by
        unfold FrameMgr.trackStats
        rw [hf.features]
        congr 1
        funext acc e
        unfold FrameMgr.trackStep
        rw [h.features, hf.id, h.id, hw.feat]
        rfl
      have hn : (f'.p - pre'.p).norm = (f.p - pre.p).norm := by rw [hf.p, h.p, ← Quat.rotate_sub, norm_turn r hr]
      rw [ht, hn, hw.frm.minTracked, hw.frm.maxTranslation]

theorem decidePolicy_turned {r : Quat ℝ} (hr : r.sqNorm = 1) {w w' : Win ℝ T} (hw : WinTurned r w w') : decidePolicy w' = decidePolicy w := by
  unfold decidePolicy FrameMgr.needMarginalize
  rw [hw.frm.maxWindowSize, ← hw.frm.frames.length_eq]
  have h := forall₂_reverse hw.frm.frames
  split
  · revert h
    generalize w.frm.frames.reverse = l
    generalize w'.frm.frames.reverse = l'
    intro h
    cases h with
    | nil => rfl
    | cons h1 h2 =>
      cases h2 with
      | nil => rfl
      | cons h3 h4 =>
        dsimp only
        rw [isKeyFrame_turned hr hw h3]
  · rfl

theorem updateNewest_turned {r : Quat ℝ} {nc : Nat} {s s' : PropQueue ℝ T} (hs : QTurned r nc s s') {m m' : FrameMgr ℝ T} (hm : FramesTurned r m m') :
    Both (fun x y => y.1 = x.1 ∧ FramesTurned r x.2 y.2) (updateNewest s m) (updateNewest s' m') := by
  unfold updateNewest
  rw [← forall₂_isEmpty hm.frames]
  split
  · exact ⟨rfl, hm⟩
  · refine (front_rel hs.items).bind (fun i i' _ _ hi => ?_)
    refine ⟨rfl, ⟨?_, hm.nextAddr, hm.extrinsics, hm.mounted, hm.maxWindowSize, hm.minTracked, hm.minParallax, hm.maxTranslation⟩⟩
    show List.Forall₂ _ (setBack m.frames i.st) (setBack m'.frames i'.st)
    unfold setBack
    rcases List.eq_nil_or_concat m.frames with h0 | ⟨l, b, h0⟩
    · have := hm.frames
      rw [h0] at this ⊢
      cases h' : m'.frames with
      | nil => exact List.Forall₂.nil
      | cons a b => rw [h'] at this; cases this
    · have hfr := hm.frames
      rcases List.eq_nil_or_concat m'.frames with h1 | ⟨l', b', h1⟩
      · have := hfr.length_eq; rw [h0, h1] at this; simp at this
      · rw [h0, h1] at hfr ⊢
        rw [List.concat_eq_append, List.concat_eq_append] at hfr ⊢
        have hlen : l.length = l'.length := by have := hfr.length_eq; simpa using this
        have hl := List.forall₂_take_append _ _ _ hfr
        have hb := List.forall₂_drop_append _ _ _ hfr
        rw [← hlen, List.take_left'  rfl] at hl
        rw [← hlen, List.drop_left' rfl] at hb
        simp only [List.getLast?_append, List.getLast?_singleton, Option.some_or, List.dropLast_concat]
        have hb : FrameTurned r b b' := by cases hb; assumption
        refine List.rel_append hl (List.Forall₂.cons ⟨hb.addr, hb.features, hb.id, hb.ts, ?_, ?_, ?_, hi.moved.unit⟩ List.Forall₂.nil)
        · dsimp only
          rw [hi.moved.st]
          show r.rotate i.st.p + 0 = _
          apply Vec3.ext <;> simp
        · dsimp only
          rw [hi.moved.st]
          show r.rotate i.st.v + 0 = _
          apply Vec3.ext <;> simp
        · dsimp only
          rw [hi.moved.st]
          rfl

/-! ### The update -/

theorem kalman_symm_turn (ext : Ext ℝ) (noise : ℝ) (P hxr : DMat ℝ) (k : Kalman ℝ) (hsq : P.cols = P.rows) (h : kalman ext noise P hxr = .ok k) (hc : 1 ≤ hxr.cols) : SymmTo P.rows k.cov.e := by
  have hcols : hxr.cols = P.rows + 1 := by
    unfold kalman at h
    obtain ⟨H, b1, h⟩ := Res.bind_eq_ok.1 h
    obtain ⟨r, b2, h⟩ := Res.bind_eq_ok.1 h
    obtain ⟨PHt, b3, h⟩ := Res.bind_eq_ok.1 h
    have d1 := DMat.block_dims b1
    have d3 : P.cols = H.cols := by
      unfold DMat.mul at b3
      split at b3
      · rename_i hh; exact hh
      · cases b3
    omega
  obtain ⟨k', S, e0, -, -, -, -, -, -, -, -, -, e10⟩ := kalman_eq ext noise P hxr P.rows hxr.rows rfl hsq rfl hcols
  obtain rfl : k' = k := by rw [e0] at h; cases h; rfl
  intro i j hi hj
  have : (k'.cov.toM P.rows P.rows).transpose = k'.cov.toM P.rows P.rows := by
    rw [e10, Matrix.transpose_smul, Matrix.transpose_add, Matrix.transpose_transpose, add_comm]
  exact congrFun (congrFun this ⟨j, hj⟩) ⟨i, hi⟩

theorem afterSelect_turned {r : Quat ℝ} (hr : r.sqNorm = 1) {nc : Nat} {env env' : Env ℝ} (he : EnvTurned r nc env env') (noise : ℝ) {g : Vec3 ℝ} (hg : r.rotate g = g) {u u' : Upd ℝ T}
    (hu : UTurned r nc u u') (hnc : u.w.frm.extrinsics.length = nc) (hf : u.w.frm.frames ≠ []) (h2 : u.policy = .noMarg ∨ 2 ≤ u.w.frm.frames.length) (hQ : u.q.Q.cols = 12)
    (hc : CovPair r nc (9 + (nc + u.w.frm.frames.length) * 6) u.cov u'.cov) :
    Both (fun x y => y.1 = x.1 ∧ UTurned r nc x.2 y.2) (afterSelect env noise g u) (afterSelect env' noise g u') := by
  subst hnc
  unfold afterSelect
  rw [hu.features]
  split
  · exact finish_turned hr he.junk hg hu rfl hf h2 hQ hc
  · have hsolve : Both (Option.Rel (fun k k' : Kalman ℝ => k'.dx.rows = k.dx.rows ∧ k'.dx.cols = 1 ∧ k.dx.cols = 1 ∧ k.dx.rows = u.cov.rows ∧
        (∀ i, i < u.cov.rows → k'.dx.e i 0 = turnTriples r.toMat (inWorld u.w.frm.extrinsics.length) (fun l => k.dx.e l 0) i) ∧
        CovPair r u.w.frm.extrinsics.length u.cov.rows k.cov k'.cov)) (solve env noise u.cov u.w u.features) (solve env' noise u'.cov u'.w u.features) := by
      unfold solve
      refine (measure_turned r hr hu.w he u.features).bind (fun x y _ _ h => ?_)
      cases h with
      | none => exact Option.Rel.none
      | some h =>
        dsimp only
        have hw := h.1.width
        refine (kalman_turned r hr he.ext noise hc.turned (by rw [hc.cols, hc.rows]) h.1).bind (fun k k' hk _ hkk => ?_)
        obtain ⟨a1, a2, a3, a4, a5, a6, a7, a8⟩ := hkk
        exact Option.Rel.some ⟨a1, a2, a3, a4, a5, ⟨a6, a7, a8, kalman_symm_turn _ _ _ _ _ (by rw [hc.cols, hc.rows]) hk (by omega)⟩⟩
    refine hsolve.bind (fun k k' _ _ h => ?_)
    cases h with
    | none => exact ⟨rfl, hu⟩
    | some h =>
      rename_i k k' _ _
      obtain ⟨a1, a2, a3, a4, a5, a6⟩ := h
      dsimp only
      refine (correct_turned hr hu.w.frm hu.q a4 (a1.trans a4) a3 a2 a5).bind (fun x y hx hy hxy => ?_)
      obtain ⟨s, m⟩ := x
      obtain ⟨s', m'⟩ := y
      obtain ⟨b1, b2, b3⟩ := hxy
      dsimp only at b1 b2 b3 ⊢
      obtain ⟨c1, c2, c3⟩ := correct_length _ _ _ _ _ hx
      refine finish_turned hr he.junk hg (u := { u with q := s, w := { u.w with frm := m }, cov := k.cov }) (u' := { u' with q := s', w := { u'.w with frm := m' }, cov := k'.cov, features := u.features })
        ⟨b1, ⟨hu.w.feat, b2⟩, hu.policy, hu.pos, rfl⟩ c1 ?_ ?_ (by rw [b3]; exact hQ) ?_
      · have := List.length_pos_iff.2 hf
        exact List.length_pos_iff.1 (by dsimp only; omega)
      · dsimp only; rw [c2]; exact h2
      · dsimp only
        rw [c2, ← hc.rows]
        exact a6

/-- The update of the turned state is the turned update. -/
theorem update_turned {r : Quat ℝ} (hr : r.sqNorm = 1) {nc : Nat} {env env' : Env ℝ} (he : EnvTurned r nc env env') (noise : ℝ) (maxUsed : Nat) {g : Vec3 ℝ} (hg : r.rotate g = g) {u u' : Upd ℝ T}
    (hu : UTurned r nc u u') (hnc : u.w.frm.extrinsics.length = nc) (hi : CovInv u.q) (hf : u.w.frm.frames ≠ []) (hlt : (nc + u.w.frm.frames.length) * 6 < two32) (ts thr : T) :
    Both (fun x y => y.1 = x.1 ∧ UTurned r nc x.2 y.2) (update env noise maxUsed g u ts thr) (update env' noise maxUsed g u' ts thr) := by
  subst hnc
  rw [update_eq, update_eq]
  have hq := resetOrigin_cov u.q ts thr hi
  obtain ⟨hs, hfound⟩ := resetOrigin_turned hu.q ts thr
  rw [hfound]
  generalize u.q.resetOrigin ts thr = q at hs hq ⊢
  generalize u'.q.resetOrigin ts thr = q' at hs ⊢
  split
  · exact ⟨rfl, ⟨hs, hu.w, hu.policy, hu.pos, hu.features⟩⟩
  rw [decidePolicy_turned hr hu.w]
  refine (Both.refl (R := Eq) (fun _ => rfl) _).bind (fun policy _ hp _ e => ?_); subst e
  have hpol : policy = .noMarg ∨ 2 ≤ u.w.frm.frames.length := by
    unfold decidePolicy at hp
    split at hp
    · split at hp
      · rename_i b sn rest hr
        right
        have := congrArg List.length hr
        simp at this
        omega
      · cases hp
    · cases hp; exact .inl rfl
  refine (constructCov_turned hs hq hu.w.frm.extrinsics hu.w.frm.frames.length_eq.symm hf hlt).bind (fun c c' _ _ hc => ?_)
  obtain ⟨hc1, hc2⟩ := hc
  rw [hc1]
  split
  · exact ⟨rfl, ⟨hs, hu.w, rfl, hu.pos, hu.features⟩⟩
  rename_i hg1
  have hcp := hc2 (by simpa using hg1)
  refine (updateNewest_turned hs hu.w.frm).bind (fun m m' hm _ hmm => ?_)
  obtain ⟨hm1, hm2⟩ := hmm
  rw [hm1]
  have hmfull : m = (m.1, m.2) := rfl
  rw [hmfull] at hm
  obtain ⟨n1, n2⟩ := updateNewest_length _ _ _ _ hm
  split
  · exact ⟨rfl, ⟨hs, ⟨hu.w.feat, hm2⟩, rfl, hu.pos, hu.features⟩⟩
  rw [hu.pos]
  refine (selectGood_turned r hr he maxUsed u.pos (w := { u.w with frm := m.2 }) (w' := { u'.w with frm := m'.2 }) ⟨hu.w.feat, hm2⟩).bind (fun x y _ _ hxy => ?_)
  obtain ⟨x1, x2, x3, x4⟩ := hxy
  rw [x2]
  dsimp only at x3 x4
  refine afterSelect_turned hr he noise hg (u := { u with q := q.1, policy := policy, cov := c.2, w := x.1, features := x.2.1, pos := x.2.2 })
    (u' := { u' with q := q'.1, policy := policy, cov := c'.2, w := y.1, features := x.2.1, pos := x.2.2 }) ⟨hs, x1, rfl, rfl, rfl⟩ ?_ ?_ ?_ hq.noise.qc ?_
  · dsimp only; rw [x3, n1]
  · dsimp only; rw [x3]
    have := List.length_pos_iff.2 hf
    exact List.length_pos_iff.1 (by omega)
  · dsimp only; rw [x3, n2]; exact hpol
  · dsimp only; rw [x3, n2]; exact hcp

end Vio
