/-
Properties C40 to C43: marginalisation policy, assembly, augmentation and reduction of the covariance.
-/
import Verif.Model.Update
import Verif.Spec.Update
import Verif.Props.Window

set_option linter.unusedSectionVars false

namespace Vio
open Spec WinSpec

variable {K T : Type} [Add K] [Sub K] [Mul K] [Neg K] [Div K] [Zero K] [One K] [ScalarFn K]
  [TimeOps T] [TimeCast T K]

namespace DMat

/-- Entries after a block assignment. -/
def put (a : DMat K) (i j r c : Nat) (b : DMat K) : DMat K :=
  ⟨a.rows, a.cols, fun x y => if i ≤ x ∧ x < i + r ∧ j ≤ y ∧ y < j + c then b.e (x - i) (y - j) else a.e x y⟩

theorem setBlock_ok {a : DMat K} {i j r c : Nat} {b : DMat K} (h1 : i + r ≤ a.rows) (h2 : j + c ≤ a.cols) (h3 : b.rows = r) (h4 : b.cols = c) :
    a.setBlock i j r c b = .ok (a.put i j r c b) := by
  unfold setBlock
  rw [if_neg (by simp [h1, h2]), if_neg (by simp [h3, h4])]
  rfl

theorem setBlock_spec {a : DMat K} {i j r c : Nat} {b : DMat K} (h1 : i + r ≤ a.rows) (h2 : j + c ≤ a.cols) (h3 : b.rows = r) (h4 : b.cols = c) :
    ∃ a', a.setBlock i j r c b = .ok a' ∧ a'.rows = a.rows ∧ a'.cols = a.cols ∧
      ∀ x y, a'.e x y = if i ≤ x ∧ x < i + r ∧ j ≤ y ∧ y < j + c then b.e (x - i) (y - j) else a.e x y :=
  ⟨_, setBlock_ok h1 h2 h3 h4, rfl, rfl, fun _ _ => rfl⟩

theorem block_spec {a : DMat K} {i j r c : Nat} (h1 : i + r ≤ a.rows) (h2 : j + c ≤ a.cols) :
    ∃ b, a.block i j r c = .ok b ∧ b.rows = r ∧ b.cols = c ∧ ∀ x y, b.e x y = a.e (i + x) (j + y) := by
  refine ⟨⟨r, c, fun x y => a.e (i + x) (j + y)⟩, ?_, rfl, rfl, fun _ _ => rfl⟩
  unfold block
  rw [if_pos ⟨h1, h2⟩]

theorem block_ok {a : DMat K} {i j r c : Nat} (h1 : i + r ≤ a.rows) (h2 : j + c ≤ a.cols) :
    a.block i j r c = .ok ⟨r, c, fun x y => a.e (i + x) (j + y)⟩ := by
  unfold block
  rw [if_pos ⟨h1, h2⟩]

@[simp] theorem put_rows (a : DMat K) (i j r c : Nat) (b : DMat K) : (a.put i j r c b).rows = a.rows := rfl
@[simp] theorem put_cols (a : DMat K) (i j r c : Nat) (b : DMat K) : (a.put i j r c b).cols = a.cols := rfl
@[simp] theorem zero_rows (r c : Nat) : (DMat.zero r c : DMat K).rows = r := rfl
@[simp] theorem zero_cols (r c : Nat) : (DMat.zero r c : DMat K).cols = c := rfl
@[simp] theorem transpose_rows (a : DMat K) : a.transpose.rows = a.cols := rfl
@[simp] theorem transpose_cols (a : DMat K) : a.transpose.cols = a.rows := rfl
@[simp] theorem mulF_rows (a b : DMat K) : (a.mulF b).rows = a.rows := rfl
@[simp] theorem mulF_cols (a b : DMat K) : (a.mulF b).cols = b.cols := rfl
@[simp] theorem cr_rows (junk : Nat → Nat → K) (a : DMat K) (r c : Nat) : (a.conservativeResize junk r c).rows = r := rfl
@[simp] theorem cr_cols (junk : Nat → Nat → K) (a : DMat K) (r c : Nat) : (a.conservativeResize junk r c).cols = c := rfl

end DMat

namespace Update

/-! ### C40 -/

/-- C40, within the limit: nothing is dropped. -/
theorem C40_within (w : Win K T) (h : w.frm.frames.length ≤ w.frm.maxWindowSize) : decidePolicy w = .ok .noMarg := by
  unfold decidePolicy FrameMgr.needMarginalize
  simp [Nat.not_lt.2 h]

/-- C40, overfull window with at least two (distinct) frames: `s` is the second newest. -/
theorem C40_overfull (w : Win K T) (hn : (w.frm.frames.map (·.addr)).Nodup) (h : w.frm.maxWindowSize < w.frm.frames.length) (fs : List (Frame K T))
    (s b : Frame K T) (hfs : w.frm.frames = fs ++ [s, b]) :
    ∃ key, w.frm.isKeyFrame w.feat (some s) = .ok key ∧ decidePolicy w = .ok (if key then .margOldest else .margSubnew) := by
  have hrev : w.frm.frames.reverse = b :: s :: fs.reverse := by rw [hfs]; simp
  have hn' : (w.frm.frames.reverse.map (·.addr)).Nodup := by rw [List.map_reverse]; exact List.nodup_reverse.2 hn
  have hkey : (w.frm.isKeyFrame w.feat (some s)).isOk = true := by
    have := findPrev_eq w.frm.frames.reverse s [b] fs.reverse (by rw [hrev]; simp) hn'
    unfold FrameMgr.isKeyFrame
    simp only [this]
    cases fs.reverse.head? with
    | none => rfl
    | some a => simp only; split <;> (try split) <;> rfl
  obtain ⟨key, hk⟩ := Res.exists_of_isOk hkey
  refine ⟨key, hk, ?_⟩
  unfold decidePolicy FrameMgr.needMarginalize
  rw [hrev]
  simp [h, hk]

/-- C40, the newest frame is never chosen. -/
theorem C40_never_newest (w : Win K T) : decidePolicy w ≠ .ok .margNewest := by
  unfold decidePolicy
  split
  · split
    · intro h
      obtain ⟨key, _, hk⟩ := Res.bind_eq_ok.1 h
      cases key <;> simp at hk
    · simp
  · simp

/-- C40, undefined behaviour is confined to overfull windows of less than two frames (a configured size of zero). -/
theorem C40_defined (w : Win K T) (hn : (w.frm.frames.map (·.addr)).Nodup) (h2 : 2 ≤ w.frm.frames.length ∨ w.frm.frames.length ≤ w.frm.maxWindowSize) :
    (decidePolicy w).isOk = true := by
  by_cases h : w.frm.frames.length ≤ w.frm.maxWindowSize
  · rw [C40_within w h]; rfl
  · have h2 : 2 ≤ w.frm.frames.length := by omega
    rcases hr : w.frm.frames.reverse with _ | ⟨b, _ | ⟨s, fs⟩⟩
    · have := congrArg List.length hr; simp at this; simp [this] at h2
    · have := congrArg List.length hr; simp at this; omega
    · have hfs : w.frm.frames = fs.reverse ++ [s, b] := by
        have := congrArg List.reverse hr
        simpa using this
      obtain ⟨key, _, hk⟩ := C40_overfull w hn (by omega) fs.reverse s b hfs
      rw [hk]; rfl

/-- C40, a window of exactly two frames never drops its second newest frame: that frame is the oldest, which counts as keyframe. -/
theorem C40_two_frames (w : Win K T) (hn : (w.frm.frames.map (·.addr)).Nodup) (s b : Frame K T) (hfs : w.frm.frames = [s, b]) :
    decidePolicy w ≠ .ok .margSubnew := by
  by_cases h : w.frm.frames.length ≤ w.frm.maxWindowSize
  · rw [C40_within w h]; simp
  · obtain ⟨key, hk, hp⟩ := C40_overfull w hn (by omega) [] s b hfs
    have := (C22_keyframe w.frm w.feat hn).2.1 s [b] hfs
    rw [this] at hk
    cases hk
    rw [hp]; simp

/-! ### C41 -/

/-- C41.  For a queue with a first item and a window with a frame: false exactly when the cross part has the wrong number of columns; otherwise
the joint covariance. -/
theorem C41_assembly (s : PropQueue K T) (m : FrameMgr K T) (i0 : PropItem K T) (rest : List (PropItem K T)) (hi : s.items = i0 :: rest)
    (hf : m.frames ≠ []) (hlt : (m.extrinsics.length + m.frames.length) * 6 < two32)
    (d1 : i0.imuCov.rows = 15) (d2 : i0.imuCov.cols = 15) (d3 : i0.imuEx.rows = 15) (d4 : s.exCamCov.rows = i0.imuEx.cols) (d5 : s.exCamCov.cols = i0.imuEx.cols) :
    ∃ good c, constructCov s m = .ok (good, c) ∧ (good = false ↔ i0.imuEx.cols ≠ 6 * (m.extrinsics.length + m.frames.length - 1)) ∧
      (good = true → c.rows = 15 + i0.imuEx.cols ∧ c.cols = 15 + i0.imuEx.cols ∧
        ∀ i j, i < c.rows → j < c.cols → c.e i j = jointEntry i0.imuCov.e i0.imuEx.e s.exCamCov.e i j) := by
  have hpos : 0 < m.frames.length := List.length_pos_iff.2 hf
  have hsub : sub32 (m.extrinsics.length + m.frames.length) 1 = m.extrinsics.length + m.frames.length - 1 := by
    apply sub32_of_le <;> omega
  have hmul : mul32 (m.extrinsics.length + m.frames.length - 1) 6 = (m.extrinsics.length + m.frames.length - 1) * 6 := by
    apply mul32_of_lt; omega
  unfold constructCov
  rw [hi]
  simp only [front_cons, Res.bind_ok, hsub, hmul]
  generalize hn : (m.extrinsics.length + m.frames.length - 1) * 6 = n
  by_cases hc : i0.imuEx.cols = n
  · rw [if_neg (by simp [hc])]
    rw [DMat.setBlock_ok (by simp) (by simp) d1 d2]
    simp only [Res.bind_ok]
    rw [DMat.setBlock_ok (by simp) (by simp) d3 hc]
    simp only [Res.bind_ok]
    rw [DMat.setBlock_ok (by simp) (by simp) (by simp [hc]) (by simp [d3])]
    simp only [Res.bind_ok]
    rw [DMat.setBlock_ok (by simp) (by simp) (by rw [d4, hc]) (by rw [d5, hc])]
    simp only [Res.bind_ok]
    refine ⟨true, _, rfl, by simp [hc]; omega, fun _ => ⟨by simp [hc], by simp [hc], ?_⟩⟩
    intro i j hi hj
    simp only [DMat.put_rows, DMat.put_cols, DMat.zero_rows, DMat.zero_cols] at hi hj
    simp only [DMat.put, DMat.transpose, jointEntry, imuStateSize] at hi hj ⊢
    split_ifs <;> first | rfl | omega
  · rw [if_pos (by simpa using hc)]
    exact ⟨false, _, rfl, by simp; omega, by simp⟩

/-- C41, the joint covariance is symmetric if the stored diagonal parts are. -/
theorem C41_symmetric (imu ex cam : Nat → Nat → K) (n : Nat) (h1 : SymmTo 15 imu) (h2 : SymmTo n cam) : SymmTo (15 + n) (jointEntry imu ex cam) := by
  intro i j hi hj
  unfold jointEntry
  split_ifs
  · exact h1 i j (by omega) (by omega)
  · rfl
  · rfl
  · exact h2 _ _ (by omega) (by omega)

/-! ### C42 -/

theorem expandJ_entry (i k : Nat) (hi : i < 6) (hk : k < 15) : (expandJ : DMat ℝ).e i k = if k = cloneIdx 15 (15 + i) then 1 else 0 := by
  interval_cases i <;> interval_cases k <;>
    simp [expandJ, DMat.setBlock3, DMat.zero, Mat3.get, Mat3.row, Mat3.one, Vec3.get, cloneIdx, indexP, indexR]

theorem sumTo_expandJ (f : Nat → ℝ) (i : Nat) (hi : i < 6) : sumTo 15 (fun k => (expandJ : DMat ℝ).e i k * f k) = f (cloneIdx 15 (15 + i)) := by
  have h : ∀ n, n ≤ 15 → sumTo n (fun k => (expandJ : DMat ℝ).e i k * f k) = if cloneIdx 15 (15 + i) < n then f (cloneIdx 15 (15 + i)) else 0 := by
    intro n
    induction n with
    | zero => intro _; simp [sumTo]
    | succ n ih =>
      intro hn
      rw [sumTo, ih (by omega)]
      simp only [expandJ_entry i n hi (by omega)]
      generalize cloneIdx 15 (15 + i) = k
      by_cases h2 : n = k
      · subst h2; simp
      · rw [if_neg h2]
        split_ifs <;> first | omega | ring
  rw [h 15 le_rfl, if_pos]
  unfold cloneIdx
  split_ifs <;> omega

theorem expandJ_rows : (expandJ : DMat ℝ).rows = 6 := rfl
theorem expandJ_cols : (expandJ : DMat ℝ).cols = 15 := rfl

theorem cloneIdx_shift (n i : Nat) (h : n ≤ i) : cloneIdx 15 (15 + (i - n)) = cloneIdx n i := by
  unfold cloneIdx
  split_ifs <;> omega

/-- C42.  The augmented covariance, entry by entry, whatever the uninitialised memory contains. -/
theorem C42_entries (junk : Nat → Nat → ℝ) (m : FrameMgr ℝ T) (c : DMat ℝ) (n : Nat) (hf : m.frames ≠ [])
    (hn : n + 6 = 15 + (m.extrinsics.length + m.frames.length) * 6) (hr : c.rows = n) (hc : c.cols = n) (hs : SymmTo n c.e) :
    ∃ c', expand junk m c = .ok c' ∧ c'.rows = n + 6 ∧ c'.cols = n + 6 ∧ ∀ i j, i < n + 6 → j < n + 6 → c'.e i j = c.e (cloneIdx n i) (cloneIdx n j) := by
  have hpos : 0 < m.frames.length := List.length_pos_iff.2 hf
  have hn15 : 15 ≤ n := by omega
  have hcam : (m.extrinsics.length + m.frames.length) * 6 = n + 6 - 15 := by omega
  have e1 : imuStateSize + (n + 6 - 15) = n + 6 := by simp only [imuStateSize]; omega
  have e2 : n + 6 - 6 = n := by omega
  have e3 : n + 6 - 15 - 6 = n - 15 := by omega
  unfold expand
  simp only [hcam, e1, e2, e3, imuStateSize]
  have hid : ∀ i, i < n → cloneIdx n i = i := by intro i h; unfold cloneIdx; rw [if_pos h]
  have hlt6 : ∀ i, n ≤ i → i < n + 6 → cloneIdx n i < 15 := by
    intro i h1 h2; unfold cloneIdx; split_ifs <;> omega
  have e0 : ∀ x y, x < n → y < n → (c.conservativeResize junk (n + 6) (n + 6)).e x y = c.e x y := by
    intro x y hx hy
    simp [DMat.conservativeResize, hr, hc, hx, hy]
  obtain ⟨c1, h1, r1, k1, f1⟩ := DMat.setBlock_spec (a := c.conservativeResize junk (n + 6) (n + 6)) (i := 0) (j := n) (r := n + 6) (c := 6)
    (b := .zero (n + 6) 6) (by simp) (by simp) rfl rfl
  rw [h1, Res.bind_ok]
  rw [DMat.cr_rows] at r1; rw [DMat.cr_cols] at k1
  obtain ⟨c2, h2, r2, k2, f2⟩ := DMat.setBlock_spec (a := c1) (i := n) (j := 0) (r := 6) (c := n + 6) (b := .zero 6 (n + 6)) (by omega) (by omega) rfl rfl
  rw [h2, Res.bind_ok]
  have g2 : ∀ x y, x < n → y < n → c2.e x y = c.e x y := by
    intro x y hx hy
    rw [f2, if_neg (by omega), f1, if_neg (by omega), e0 x y hx hy]
  obtain ⟨ic, h3, r3, k3, f3⟩ := DMat.block_spec (a := c2) (i := 0) (j := 0) (r := 15) (c := 15) (by omega) (by omega)
  rw [h3, Res.bind_ok]
  obtain ⟨ie, h4, r4, k4, f4⟩ := DMat.block_spec (a := c2) (i := 0) (j := 15) (r := 15) (c := n - 15) (by omega) (by omega)
  rw [h4, Res.bind_ok]
  obtain ⟨c5, h5, r5, k5, f5⟩ := DMat.setBlock_spec (a := c2) (i := n) (j := 0) (r := 6) (c := 15) (b := (expandJ : DMat ℝ).mulF ic) (by omega) (by omega) rfl k3
  rw [h5, Res.bind_ok]
  obtain ⟨c6, h6, r6, k6, f6⟩ := DMat.setBlock_spec (a := c5) (i := n) (j := 15) (r := 6) (c := n - 15) (b := (expandJ : DMat ℝ).mulF ie) (by omega) (by omega) rfl k4
  rw [h6, Res.bind_ok]
  obtain ⟨b, h7, r7, k7, f7⟩ := DMat.block_spec (a := c6) (i := n) (j := 0) (r := 6) (c := n) (by omega) (by omega)
  rw [h7, Res.bind_ok]
  obtain ⟨c8, h8, r8, k8, f8⟩ := DMat.setBlock_spec (a := c6) (i := 0) (j := n) (r := n) (c := 6) (b := b.transpose) (by omega) (by omega) k7 r7
  rw [h8, Res.bind_ok]
  obtain ⟨c9, h9, r9, k9, f9⟩ := DMat.setBlock_spec (a := c8) (i := n) (j := n) (r := 6) (c := 6)
    (b := ((expandJ : DMat ℝ).mulF ic).mulF (expandJ : DMat ℝ).transpose) (by omega) (by omega) rfl rfl
  refine ⟨c9, h9, by omega, by omega, ?_⟩
  -- the new rows
  have row : ∀ i j, i < 6 → j < n → c6.e (n + i) j = c.e (cloneIdx n (n + i)) j := by
    intro i j hi hj
    have hsh := cloneIdx_shift n (n + i) (by omega)
    rw [show n + i - n = i by omega] at hsh
    have hl := hlt6 (n + i) (by omega) (by omega)
    by_cases h15 : j < 15
    · rw [f6, if_neg (by omega), f5, if_pos (by omega)]
      simp only [DMat.mulF, expandJ_cols]
      rw [show n + i - n = i by omega, sumTo_expandJ (fun k => ic.e k (j - 0)) i hi, hsh, f3, g2 _ _ (by omega) (by omega)]
      simp
    · rw [f6, if_pos (by omega)]
      simp only [DMat.mulF, expandJ_cols]
      rw [show n + i - n = i by omega, sumTo_expandJ (fun k => ie.e k (j - 15)) i hi, hsh, f4, g2 _ _ (by omega) (by omega)]
      rw [show 15 + (j - 15) = j by omega, Nat.zero_add]
  intro i j hi hj
  by_cases hin : i < n <;> by_cases hjn : j < n
  · rw [f9, if_neg (by omega), f8, if_neg (by omega), f6, if_neg (by omega), f5, if_neg (by omega), g2 i j hin hjn, hid i hin, hid j hjn]
  · rw [f9, if_neg (by omega), f8, if_pos (by omega)]
    simp only [DMat.transpose]
    rw [f7, row (j - n) (0 + (i - 0)) (by omega) (by omega), show n + (j - n) = j by omega, hid i hin, Nat.zero_add, Nat.sub_zero]
    have := hlt6 j (by omega) hj
    exact hs _ _ (by omega) (by omega)
  · rw [f9, if_neg (by omega), f8, if_neg (by omega), show i = n + (i - n) by omega, row (i - n) j (by omega) hjn, hid j hjn]
  · have hi' := hlt6 i (by omega) hi
    have hj' := hlt6 j (by omega) hj
    rw [f9, if_pos (by omega)]
    simp only [DMat.mulF, DMat.transpose, expandJ_cols, k3]
    have : (fun k => sumTo 15 (fun k' => (expandJ : DMat ℝ).e (i - n) k' * ic.e k' k) * (expandJ : DMat ℝ).e (j - n) k) =
        fun k => (expandJ : DMat ℝ).e (j - n) k * (fun k => ic.e (cloneIdx n i) k) k := by
      funext k
      rw [sumTo_expandJ (fun k' => ic.e k' k) (i - n) (by omega), cloneIdx_shift n i (by omega), mul_comm]
    rw [this, sumTo_expandJ _ (j - n) (by omega), cloneIdx_shift n j (by omega), f3, g2 _ _ (by omega) (by omega), Nat.zero_add, Nat.zero_add]

theorem cloneIdx_lt (n i : Nat) (hn : 15 ≤ n) (hi : i < n + 6) : cloneIdx n i < n := by
  unfold cloneIdx; split_ifs <;> omega

/-- C42.  The augmented covariance is `T * C * Tᵀ` for the matrix `T` that clones position and attitude; it is symmetric, and positive semidefinite if `C` is. -/
theorem C42_expand (junk : Nat → Nat → ℝ) (m : FrameMgr ℝ T) (c : DMat ℝ) (n : Nat) (hf : m.frames ≠ [])
    (hn : n + 6 = 15 + (m.extrinsics.length + m.frames.length) * 6) (hr : c.rows = n) (hc : c.cols = n) (hs : SymmTo n c.e) :
    ∃ c', expand junk m c = .ok c' ∧ c'.rows = n + 6 ∧ c'.cols = n + 6 ∧
      c'.toM (n + 6) (n + 6) = cloneMat n * c.toM n n * (cloneMat n).transpose ∧ SymmTo (n + 6) c'.e ∧
      ((c.toM n n).PosSemidef → (c'.toM (n + 6) (n + 6)).PosSemidef) := by
  obtain ⟨c', h1, h2, h3, h4⟩ := C42_entries junk m c n hf hn hr hc hs
  have hpos : 0 < m.frames.length := List.length_pos_iff.2 hf
  have hmat : c'.toM (n + 6) (n + 6) = cloneMat n * c.toM n n * (cloneMat n).transpose := by
    ext i j
    rw [DMat.toM_apply, h4 i j i.2 j.2, Matrix.mul_apply]
    have hcl : ∀ i : Fin (n + 6), cloneIdx n i < n := fun i => cloneIdx_lt n i (by omega) i.2
    rw [Finset.sum_eq_single ⟨cloneIdx n j, hcl j⟩]
    · rw [Matrix.mul_apply, Finset.sum_eq_single ⟨cloneIdx n i, hcl i⟩]
      · simp [cloneMat, DMat.toM]
      · intro b _ hb
        have : ¬ b.val = cloneIdx n i := fun h => hb (Fin.ext h)
        simp [cloneMat, this]
      · simp
    · intro b _ hb
      have : ¬ b.val = cloneIdx n j := fun h => hb (Fin.ext h)
      simp [cloneMat, this]
    · simp
  refine ⟨c', h1, h2, h3, hmat, ?_, ?_⟩
  · intro i j hi hj
    rw [h4 i j hi hj, h4 j i hj hi]
    exact hs _ _ (cloneIdx_lt n i (by omega) hi) (cloneIdx_lt n j (by omega) hj)
  · intro hp
    rw [hmat]
    have := hp.mul_mul_conjTranspose_same (cloneMat n)
    rwa [Matrix.conjTranspose_eq_transpose_of_trivial] at this

/-! ### C43 -/

/-- Index, within the window, of the frame a policy drops. -/
def dropIndex (n : Nat) : MargPolicy → Option Nat
  | .noMarg => none
  | .margOldest => some 0
  | .margSubnew => some (n - 2)
  | .margNewest => some (n - 1)

/-- C43, no marginalisation: nothing changes. -/
theorem C43_none (junk : Nat → Nat → K) (m : FrameMgr K T) (c : DMat K) : reduce junk .noMarg m c = .ok c := rfl

/-- C43.  The reduced covariance is the principal submatrix without the six components of the frame with index `d`. -/
theorem C43_reduce (junk : Nat → Nat → K) (policy : MargPolicy) (m : FrameMgr K T) (c : DMat K) (n d : Nat) (h2 : 2 ≤ m.frames.length)
    (hn : n = 15 + (m.extrinsics.length + m.frames.length) * 6) (hr : c.rows = n) (hc : c.cols = n) (hs : SymmTo n c.e)
    (hd : dropIndex m.frames.length policy = some d) :
    ∃ c', reduce junk policy m c = .ok c' ∧ c'.rows = n - 6 ∧ c'.cols = n - 6 ∧
      ∀ i j, i < n - 6 → j < n - 6 →
        c'.e i j = c.e (skipIdx (15 + m.extrinsics.length * 6 + d * 6) i) (skipIdx (15 + m.extrinsics.length * 6 + d * 6) j) := by
  have hfull : imuStateSize + (m.extrinsics.length * 6 + m.frames.length * 6) = n := by simp only [imuStateSize]; omega
  unfold reduce
  simp only [hfull]
  cases policy with
  | noMarg => simp [dropIndex] at hd
  | margNewest =>
    simp only [dropIndex, Option.some.injEq] at hd
    refine ⟨_, rfl, rfl, rfl, ?_⟩
    intro i j hi hj
    simp only [DMat.conservativeResize, hr, hc, skipIdx]
    rw [if_pos (by omega), if_pos (by omega), if_pos (by omega)]
  | margSubnew =>
    simp only [dropIndex, Option.some.injEq] at hd
    obtain ⟨b1, h1, r1, k1, f1⟩ := DMat.block_spec (a := c) (i := 0) (j := n - 6) (r := n - 12) (c := 6) (by omega) (by omega)
    simp only [h1, Res.bind_ok]
    obtain ⟨c2, h2', r2, k2, f2⟩ := DMat.setBlock_spec (a := c) (i := 0) (j := n - 12) (r := n - 12) (c := 6) (b := b1) (by omega) (by omega) r1 k1
    simp only [h2', Res.bind_ok]
    obtain ⟨b3, h3, r3, k3, f3⟩ := DMat.block_spec (a := c2) (i := n - 6) (j := 0) (r := 6) (c := n - 12) (by omega) (by omega)
    simp only [h3, Res.bind_ok]
    obtain ⟨c4, h4, r4, k4, f4⟩ := DMat.setBlock_spec (a := c2) (i := n - 12) (j := 0) (r := 6) (c := n - 12) (b := b3) (by omega) (by omega) r3 k3
    simp only [h4, Res.bind_ok]
    obtain ⟨b5, h5, r5, k5, f5⟩ := DMat.block_spec (a := c4) (i := n - 6) (j := n - 6) (r := 6) (c := 6) (by omega) (by omega)
    simp only [h5, Res.bind_ok]
    obtain ⟨c6, h6, r6, k6, f6⟩ := DMat.setBlock_spec (a := c4) (i := n - 12) (j := n - 12) (r := 6) (c := 6) (b := b5) (by omega) (by omega) r5 k5
    simp only [h6, Res.bind_ok]
    refine ⟨_, rfl, rfl, rfl, ?_⟩
    have ho : 15 + m.extrinsics.length * 6 + d * 6 = n - 12 := by omega
    intro i j hi hj
    simp only [DMat.conservativeResize, ho, skipIdx]
    rw [if_pos (by omega)]
    by_cases hin : i < n - 12 <;> by_cases hjn : j < n - 12
    · rw [f6, if_neg (by omega), f4, if_neg (by omega), f2, if_neg (by omega), if_pos hin, if_pos hjn]
    · rw [f6, if_neg (by omega), f4, if_neg (by omega), f2, if_pos (by omega), f1, if_pos hin, if_neg hjn]
      congr 1 <;> omega
    · rw [f6, if_neg (by omega), f4, if_pos (by omega), f3, f2, if_neg (by omega), if_neg hin, if_pos hjn]
      congr 1 <;> omega
    · rw [f6, if_pos (by omega), f5, f4, if_neg (by omega), f2, if_neg (by omega), if_neg hin, if_neg hjn]
      congr 1 <;> omega
  | margOldest =>
    simp only [dropIndex, Option.some.injEq] at hd
    subst hd
    generalize ho : 15 + m.extrinsics.length * 6 = o
    generalize hq : m.frames.length * 6 - 6 = q
    have hoq : n = o + q + 6 := by omega
    obtain ⟨b1, h1, r1, k1, f1⟩ := DMat.block_spec (a := c) (i := 0) (j := o + 6) (r := o) (c := q) (by omega) (by omega)
    simp only [h1, Res.bind_ok]
    obtain ⟨c2, h2', r2, k2, f2⟩ := DMat.setBlock_spec (a := c) (i := 0) (j := o) (r := o) (c := q) (b := b1) (by omega) (by omega) r1 k1
    simp only [h2', Res.bind_ok]
    obtain ⟨c4, h4, r4, k4, f4⟩ := DMat.setBlock_spec (a := c2) (i := o) (j := 0) (r := q) (c := o) (b := b1.transpose) (by omega) (by omega) k1 r1
    simp only [h4, Res.bind_ok]
    obtain ⟨b5, h5, r5, k5, f5⟩ := DMat.block_spec (a := c4) (i := c4.rows - q) (j := c4.cols - q) (r := q) (c := q) (by omega) (by omega)
    simp only [h5, Res.bind_ok]
    obtain ⟨c6, h6, r6, k6, f6⟩ := DMat.setBlock_spec (a := c4) (i := o) (j := o) (r := q) (c := q) (b := b5) (by omega) (by omega) r5 k5
    simp only [h6, Res.bind_ok]
    refine ⟨_, rfl, rfl, rfl, ?_⟩
    intro i j hi hj
    simp only [DMat.conservativeResize, skipIdx]
    rw [if_pos (by omega)]
    by_cases hin : i < o <;> by_cases hjn : j < o
    · rw [f6, if_neg (by omega), f4, if_neg (by omega), f2, if_neg (by omega), if_pos hin, if_pos hjn]
    · rw [f6, if_neg (by omega), f4, if_neg (by omega), f2, if_pos (by omega), f1, if_pos hin, if_neg hjn]
      congr 1 <;> omega
    · rw [f6, if_neg (by omega), f4, if_pos (by omega)]
      simp only [DMat.transpose]
      rw [f1, if_neg hin, if_pos hjn, hs _ _ (by omega) (by omega)]
      congr 1 <;> omega
    · rw [f6, if_pos (by omega), f5, f4, if_neg (by omega), f2, if_neg (by omega), if_neg hin, if_neg hjn]
      congr 1 <;> omega

/-- What a frame keeps when other frames are dropped (everything but its id). -/
def frameData (f : Frame K T) : Nat × List (Nat × Nat) × Quat K × Vec3 K × Vec3 K × T := (f.addr, f.features, f.q, f.p, f.v, f.ts)

/-- C43, the other half: the frame manager drops the frame with that same index. -/
theorem C43_window (w w' : Win K T) (policy : MargPolicy) (d : Nat) (h2 : 2 ≤ w.frm.frames.length) (hlt : w.frm.frames.length < two32)
    (hd : dropIndex w.frm.frames.length policy = some d) (hw : w.marginalize policy = .ok w') :
    w'.frm.frames.length = w.frm.frames.length - 1 ∧
    ∀ a, a < w.frm.frames.length - 1 → (w'.frm.frames[a]?).map frameData = (w.frm.frames[if a < d then a else a + 1]?).map frameData := by
  have key : w'.frm = (w.frm.removeFrame d).1 ∧ d < w.frm.frames.length := by
    cases policy with
    | noMarg => simp [dropIndex] at hd
    | margOldest =>
      simp only [dropIndex, Option.some.injEq] at hd
      subst hd
      obtain ⟨a, _, hw⟩ := Res.bind_eq_ok.1 hw
      obtain ⟨b, _, hw⟩ := Res.bind_eq_ok.1 hw
      cases hw
      exact ⟨rfl, by omega⟩
    | margSubnew =>
      simp only [dropIndex, Option.some.injEq] at hd
      obtain ⟨a, _, hw⟩ := Res.bind_eq_ok.1 hw
      obtain ⟨b, _, hw⟩ := Res.bind_eq_ok.1 hw
      cases hw
      rw [sub32_of_le h2 hlt, hd]
      exact ⟨rfl, by omega⟩
    | margNewest =>
      simp only [dropIndex, Option.some.injEq] at hd
      obtain ⟨a, _, hw⟩ := Res.bind_eq_ok.1 hw
      obtain ⟨b, _, hw⟩ := Res.bind_eq_ok.1 hw
      cases hw
      rw [sub32_of_le (by omega) hlt, hd]
      exact ⟨rfl, by omega⟩
  obtain ⟨h1, hdl⟩ := key
  rw [h1]
  refine ⟨removeFrame_len _ _ hdl, ?_⟩
  intro a ha
  rw [removeFrame_get _ _ _ hdl]
  split
  · rfl
  · rw [Option.map_map]
    congr 1
    funext f
    by_cases hd0 : d = 0 <;> simp only [hd0, frameData, Function.comp, if_true, if_false]

/-- C43, both halves: the covariance block of any two frames that survive is the one they had, and so are all entries of the IMU and camera part. -/
theorem C43_blocks (junk : Nat → Nat → K) (policy : MargPolicy) (w w' : Win K T) (c : DMat K) (n d : Nat) (h2 : 2 ≤ w.frm.frames.length)
    (hlt : w.frm.frames.length < two32) (hn : n = 15 + (w.frm.extrinsics.length + w.frm.frames.length) * 6) (hr : c.rows = n) (hc : c.cols = n) (hs : SymmTo n c.e)
    (hd : dropIndex w.frm.frames.length policy = some d) (hw : w.marginalize policy = .ok w') :
    ∃ c', reduce junk policy w.frm c = .ok c' ∧ c'.rows = n - 6 ∧ c'.cols = n - 6 ∧ SymmTo (n - 6) c'.e ∧
      (∀ i j, i < 15 + w.frm.extrinsics.length * 6 → j < 15 + w.frm.extrinsics.length * 6 → c'.e i j = c.e i j) ∧
      (∀ a b x y, a < w'.frm.frames.length → b < w'.frm.frames.length → x < 6 → y < 6 →
        ∃ a' b', (w'.frm.frames[a]?).map frameData = (w.frm.frames[a']?).map frameData ∧ (w'.frm.frames[b]?).map frameData = (w.frm.frames[b']?).map frameData ∧
          c'.e (15 + w.frm.extrinsics.length * 6 + a * 6 + x) (15 + w.frm.extrinsics.length * 6 + b * 6 + y) =
            c.e (15 + w.frm.extrinsics.length * 6 + a' * 6 + x) (15 + w.frm.extrinsics.length * 6 + b' * 6 + y)) := by
  obtain ⟨c', h1, h3, h4, h5⟩ := C43_reduce junk policy w.frm c n d h2 hn hr hc hs hd
  obtain ⟨k1, k2⟩ := C43_window w w' policy d h2 hlt hd hw
  have hskip : ∀ i, i < n - 6 → skipIdx (15 + w.frm.extrinsics.length * 6 + d * 6) i < n := by
    intro i hi; unfold skipIdx; split_ifs <;> omega
  refine ⟨c', h1, h3, h4, ?_, ?_, ?_⟩
  · intro i j hi hj
    rw [h5 i j hi hj, h5 j i hj hi]
    exact hs _ _ (hskip i hi) (hskip j hj)
  · intro i j hi hj
    rw [h5 i j (by omega) (by omega)]
    simp only [skipIdx]
    rw [if_pos (by omega), if_pos (by omega)]
  · intro a b x y ha hb hx hy
    rw [k1] at ha hb
    refine ⟨_, _, k2 a ha, k2 b hb, ?_⟩
    rw [h5 _ _ (by omega) (by omega)]
    have hsk : ∀ a x, x < 6 → skipIdx (15 + w.frm.extrinsics.length * 6 + d * 6) (15 + w.frm.extrinsics.length * 6 + a * 6 + x) =
        15 + w.frm.extrinsics.length * 6 + (if a < d then a else a + 1) * 6 + x := by
      intro a x hx
      simp only [skipIdx]
      split_ifs <;> omega
    rw [hsk a x hx, hsk b y hy]

/-! ### Concrete cases -/

/-- A frame for the examples. -/
def exFrame (addr id : Nat) : Frame ℚ ℚ := ⟨addr, [], .one, 0, 0, id, 0⟩

/-- A window of three frames with limit two and one camera. -/
def exWin : Win ℚ ℚ := ⟨FMgr.init, ⟨[exFrame 0 1, exFrame 1 2, exFrame 2 3], 3, [⟨.one, 0⟩], 2, 0, 0, 1⟩⟩

/-- C40: an overfull window whose second newest frame is not a keyframe, and (with a higher tracking threshold) one where it is. -/
example : decidePolicy exWin = .ok .margSubnew := by decide +kernel
example : decidePolicy { exWin with frm := { exWin.frm with minTracked := 1 } } = .ok .margOldest := by decide +kernel

/-- C40: a configured window size of zero makes the first frame overflow the window, and the second newest frame does not exist. -/
theorem C40_zero_size_undefined (w : Win K T) (f : Frame K T) (h0 : w.frm.maxWindowSize = 0) (hf : w.frm.frames = [f]) : decidePolicy w = .ub .outOfRange := by
  unfold decidePolicy FrameMgr.needMarginalize
  simp [hf, h0]

/-- A matrix with recognisable entries. -/
def exCov (n : Nat) : DMat ℚ := ⟨n, n, fun i j => (i * j : ℚ) + i + j⟩

/-- C43: 15 + 6 + 18 components, the second newest frame (components 27 to 32) is dropped. -/
example : (reduce (fun _ _ => 7) .margSubnew exWin.frm (exCov 39)).check (fun c => c.rows == 33 && c.cols == 33 &&
    c.e 26 27 == (exCov 39).e 26 33 && c.e 27 32 == (exCov 39).e 33 38 && c.e 30 3 == (exCov 39).e 36 3) = true := by decide +kernel
/-- C43: the oldest frame (components 21 to 26) is dropped. -/
example : (reduce (fun _ _ => 7) .margOldest exWin.frm (exCov 39)).check (fun c => c.rows == 33 && c.cols == 33 &&
    c.e 20 21 == (exCov 39).e 20 27 && c.e 21 32 == (exCov 39).e 27 38 && c.e 30 3 == (exCov 39).e 36 3) = true := by decide +kernel
/-- C42: the clone of position and attitude appears in the last six components, not the junk. -/
example : (expand (fun _ _ => 7) exWin.frm (exCov 33)).check (fun c => c.rows == 39 && c.cols == 39 &&
    c.e 33 20 == (exCov 33).e 0 20 && c.e 20 36 == (exCov 33).e 20 6 && c.e 38 34 == (exCov 33).e 8 1) = true := by decide +kernel
/-- C41: a queue item of matching size, and one of wrong size. -/
example : (constructCov (K := ℚ) (T := ℚ) { (PropQueue.init ⟨0, 0, .one⟩ : PropQueue ℚ ℚ) with
    items := [⟨⟨0, 0, .one⟩, exCov 15, ⟨15, 18, fun i j => i - j⟩, 0, 0, 0⟩], exCamCov := exCov 18 } exWin.frm).check
      (fun r => r.1 && r.2.rows == 33 && r.2.e 20 4 == (4 - 5 : ℚ)) = true := by decide +kernel
example : (constructCov (K := ℚ) (T := ℚ) { (PropQueue.init ⟨0, 0, .one⟩ : PropQueue ℚ ℚ) with
    items := [⟨⟨0, 0, .one⟩, exCov 15, ⟨15, 12, fun i j => i - j⟩, 0, 0, 0⟩], exCamCov := exCov 12 } exWin.frm).check (fun r => !r.1) = true := by decide +kernel

end Update
end Vio
