/-
Components of the state without uncertainty: a zero row and column of the joint covariance stays zero, and the correction leaves such a component alone.
-/
import Verif.Lemmas.UpdateInv
import Verif.Props.FilterCov
import Verif.Props.Exact

set_option linter.unusedSectionVars false

namespace Vio
open Spec WinSpec AttSpec Update Matrix

variable {T : Type} [TimeOps T] [TimeCast T ℝ]

/-- Row and column `i` of `c` vanish up to size `n`. -/
def ZeroRow (c : DMat ℝ) (n i : Nat) : Prop := ∀ j < n, c.e i j = 0 ∧ c.e j i = 0

/-- The first `z` components after the IMU state have no uncertainty and no correlation, for every queued state. -/
structure ZeroTo (z : Nat) (s : PropQueue ℝ T) : Prop where
  cross : ∀ it ∈ s.items, ∀ i j, i < 15 → j < z → it.imuEx.e i j = 0
  cam : ∀ j < z, ZeroRow s.exCamCov s.exCamCov.rows j

theorem ZeroTo.mono {z z' : Nat} {s : PropQueue ℝ T} (h : ZeroTo z s) (hz : z' ≤ z) : ZeroTo z' s :=
  ⟨fun it hit i j hi hj => h.cross it hit i j hi (by omega), fun j hj => h.cam j (by omega)⟩

/-! ### Propagation -/

theorem stepItem_zero (z : Nat) (s : PropQueue ℝ T) (hn : NoiseOk s) (g : Vec3 ℝ) (i0 : PropItem ℝ T) (a w : Vec3 ℝ) (t : T)
    (h : ∀ i j, i < 15 → j < z → i0.imuEx.e i j = 0) : ∀ i j, i < 15 → j < z → (s.stepItem g i0 a w t).imuEx.e i j = 0 := by
  intro i j hi hj
  show sumTo (s.stepF i0 a w t).cols (fun k => (s.stepF i0 a w t).e i k * i0.imuEx.e k j) = 0
  have hc : (s.stepF i0 a w t).cols = 15 := hn.fc
  rw [hc, sumTo_eq]
  apply Finset.sum_eq_zero
  intro k _
  rw [h k j k.2 hj, mul_zero]

theorem rep_zero (z : Nat) (s : PropQueue ℝ T) (g : Vec3 ℝ) (hn : NoiseOk s) (i0 : PropItem ℝ T) (rest : List (PropItem ℝ T)) (hl : s.items = i0 :: rest)
    (h : ∀ i j, i < 15 → j < z → i0.imuEx.e i j = 0) (hc : ∀ j < z, ZeroRow s.exCamCov s.exCamCov.rows j) : ZeroTo z (s.repropagate g) := by
  obtain ⟨k1, k2⟩ := repropLoop_inv NoiseOk (fun it => ∀ i j, i < 15 → j < z → it.imuEx.e i j = 0) g noiseOk_fill
    (fun s i0 a w t hs h => stepItem_zero z s hs g i0 a w t h) s i0 rest hn h
  have e : s.repropagate g = { (PropQueue.repropLoop g s i0 rest).1 with items := i0 :: (PropQueue.repropLoop g s i0 rest).2 } := by simp [PropQueue.repropagate, hl]
  refine ⟨?_, by rw [(C36_frame s g).1]; exact hc⟩
  rw [e]
  intro it hit
  rcases List.mem_cons.1 hit with rfl | hit
  · exact h
  · exact k2 it hit

theorem propagate_zero (z nExt : Nat) (s : PropQueue ℝ T) (g a w : Vec3 ℝ) (t : T) (hn : NoiseOk s) (h : ZeroTo z s) : ZeroTo z (s.propagate nExt g a w t) := by
  unfold PropQueue.propagate
  split
  · refine ⟨?_, fun j _ i _ => ⟨rfl, rfl⟩⟩
    intro it hit i j _ _
    rw [List.mem_singleton.1 hit]
    rfl
  · rename_i i0 hl
    refine ⟨?_, h.cam⟩
    intro it hit
    rcases List.mem_append.1 hit with hit | hit
    · exact h.cross it hit
    · rw [List.mem_singleton.1 hit]
      exact stepItem_zero z s hn g i0 a w t (h.cross i0 (List.mem_of_getLast? hl))

theorem resetOrigin_zero (z : Nat) (s : PropQueue ℝ T) (ts thr : T) (h : ZeroTo z s) : ZeroTo z (s.resetOrigin ts thr).1 := by
  obtain ⟨old, h1, -, -, -, h2⟩ := C37_reset s ts thr
  rw [h2]
  refine ⟨fun i hm => h.cross i ?_, h.cam⟩
  rw [h1]
  exact List.mem_append_right _ hm

/-! ### Update -/

/-- A component without uncertainty gets no correction and stays without uncertainty.  No assumption on the decompositions. -/
theorem kalman_zero (ext : Ext ℝ) (noise : ℝ) (P hxr : DMat ℝ) (n i : Nat) (h1 : P.rows = n) (h2 : P.cols = n) (h4 : hxr.cols = n + 1) (hi : i < n) (hz : ZeroRow P n i) :
    ∃ k, kalman ext noise P hxr = .ok k ∧ k.dx.rows = n ∧ k.cov.rows = n ∧ k.cov.cols = n ∧ k.dx.e i 0 = 0 ∧ ZeroRow k.cov n i := by
  obtain ⟨k, S, hk, s1, s2, s3, s4, s5, s6, s7, s8, s9, s10⟩ := kalman_eq ext noise P hxr n hxr.rows h1 h2 rfl h4
  have hgain : ∀ j : Fin hxr.rows, k.gain.toM n hxr.rows ⟨i, hi⟩ j = 0 := by
    intro j
    rw [s4, Matrix.mul_assoc, Matrix.mul_apply]
    apply Finset.sum_eq_zero
    intro l _
    have : P.toM n n ⟨i, hi⟩ l = 0 := (hz l l.2).1
    rw [this, zero_mul]
  refine ⟨k, hk, s5, s8, s9, ?_, ?_⟩
  · have : k.dx.toM n 1 ⟨i, hi⟩ 0 = 0 := by
      rw [s7, Matrix.mul_apply]
      apply Finset.sum_eq_zero
      intro l _
      rw [hgain, zero_mul]
    exact this
  · have key : ∀ j : Fin n, ((1 - k.gain.toM n hxr.rows * hxr.toM hxr.rows n) * P.toM n n : Matrix (Fin n) (Fin n) ℝ) ⟨i, hi⟩ j = 0 ∧
        ((1 - k.gain.toM n hxr.rows * hxr.toM hxr.rows n) * P.toM n n : Matrix (Fin n) (Fin n) ℝ) j ⟨i, hi⟩ = 0 := by
      intro j
      constructor
      · rw [Matrix.sub_mul, Matrix.one_mul, Matrix.sub_apply]
        have e1 : P.toM n n ⟨i, hi⟩ j = 0 := (hz j j.2).1
        rw [e1, Matrix.mul_assoc, Matrix.mul_apply]
        rw [Finset.sum_eq_zero (fun l _ => by rw [hgain, zero_mul]), sub_zero]
      · rw [Matrix.mul_apply]
        apply Finset.sum_eq_zero
        intro l _
        have : P.toM n n l ⟨i, hi⟩ = 0 := (hz l l.2).2
        rw [this, mul_zero]
    intro j hj
    have e1 : k.cov.toM n n ⟨i, hi⟩ ⟨j, hj⟩ = 0 := by
      rw [s10, Matrix.smul_apply, Matrix.add_apply, Matrix.transpose_apply, (key ⟨j, hj⟩).1, (key ⟨j, hj⟩).2]
      simp
    have e2 : k.cov.toM n n ⟨j, hj⟩ ⟨i, hi⟩ = 0 := by
      rw [s10, Matrix.smul_apply, Matrix.add_apply, Matrix.transpose_apply, (key ⟨j, hj⟩).1, (key ⟨j, hj⟩).2]
      simp
    exact ⟨e1, e2⟩

/-- The first `z` components after the IMU state are not touched by the marginalisation policy. -/
def Keeps (nc nf z : Nat) (policy : MargPolicy) : Prop := ∀ d, dropIndex nf policy = some d → z ≤ 6 * (nc + d)

theorem finish_zero (env : Env ℝ) (g : Vec3 ℝ) (u u' : Upd ℝ T) (b : Bool) (z : Nat) (hn : NoiseOk u.q) (hf : u.w.frm.frames ≠ [])
    (h2 : u.policy = .noMarg ∨ 2 ≤ u.w.frm.frames.length) (hr : u.cov.rows + 6 = 15 + (u.w.frm.extrinsics.length + u.w.frm.frames.length) * 6) (hc : u.cov.cols = u.cov.rows)
    (hs : SymmTo u.cov.rows u.cov.e) (hz : ∀ j < z, ZeroRow u.cov u.cov.rows (15 + j)) (hle : 15 + z ≤ u.cov.rows)
    (hk : Keeps u.w.frm.extrinsics.length u.w.frm.frames.length z u.policy) (h : finish env g u = .ok (b, u')) : ZeroTo z u'.q := by
  unfold finish at h
  obtain ⟨c1, h1, h⟩ := Res.bind_eq_ok.1 h
  obtain ⟨c2, h3, h⟩ := Res.bind_eq_ok.1 h
  obtain ⟨s, h4, h⟩ := Res.bind_eq_ok.1 h
  cases h
  obtain ⟨c1', e1, e2, e3, e4⟩ := C42_entries env.junk u.w.frm u.cov u.cov.rows hf hr rfl hc hs
  obtain rfl : c1' = c1 := by rw [e1] at h1; cases h1; rfl
  have hcl : ∀ i, i < u.cov.rows + 6 → cloneIdx u.cov.rows i < u.cov.rows := fun i hi => cloneIdx_lt u.cov.rows i (by omega) hi
  have hz1 : ∀ j < z, ZeroRow c1' c1'.rows (15 + j) := by
    intro j hj l hl
    rw [e2] at hl
    rw [e4 _ _ (by omega) hl, e4 _ _ hl (by omega)]
    have e : cloneIdx u.cov.rows (15 + j) = 15 + j := by unfold cloneIdx; rw [if_pos (by omega)]
    rw [e]
    exact hz j hj _ (hcl l hl)
  have hs1 : SymmTo c1'.rows c1'.e := by
    intro i j hi hj
    rw [e2] at hi hj
    rw [e4 _ _ hi hj, e4 _ _ hj hi]
    exact hs _ _ (hcl i hi) (hcl j hj)
  have hz2 : (∀ j < z, ZeroRow c2 c2.rows (15 + j)) ∧ 15 ≤ c2.rows ∧ c2.cols = c2.rows := by
    by_cases hno : u.policy = .noMarg
    · rw [hno] at h3
      cases h3
      exact ⟨hz1, by omega, by omega⟩
    · have h2 := h2.resolve_left hno
      obtain ⟨d, hd⟩ : ∃ d, dropIndex u.w.frm.frames.length u.policy = some d := by
        cases hp : u.policy with
        | noMarg => exact absurd hp hno
        | margOldest => exact ⟨_, rfl⟩
        | margSubnew => exact ⟨_, rfl⟩
        | margNewest => exact ⟨_, rfl⟩
      obtain ⟨c3, k1, k2, k3, k4⟩ := C43_reduce env.junk u.policy u.w.frm c1' c1'.rows d h2 (by omega) rfl (by omega) hs1 hd
      obtain rfl : c3 = c2 := by rw [k1] at h3; cases h3; rfl
      have hzd := hk d hd
      refine ⟨?_, by omega, by omega⟩
      intro j hj l hl
      rw [k2] at hl
      rw [k4 _ _ (by omega) hl, k4 _ _ hl (by omega)]
      have e : skipIdx (15 + u.w.frm.extrinsics.length * 6 + d * 6) (15 + j) = 15 + j := by unfold skipIdx; rw [if_pos (by omega)]
      rw [e]
      refine hz1 j hj _ ?_
      unfold skipIdx
      split <;> omega
  obtain ⟨hz2, hr2, hc2⟩ := hz2
  unfold storeCov at h4
  split at h4
  · cases h4
  rename_i i0 rest hi
  obtain ⟨a, h1, h4⟩ := Res.bind_eq_ok.1 h4
  obtain ⟨b, h2, h4⟩ := Res.bind_eq_ok.1 h4
  obtain ⟨d, h3, h4⟩ := Res.bind_eq_ok.1 h4
  cases h4
  obtain ⟨b1, b2, b3, b4, b5⟩ := DMat.block_spec (a := c2) (i := 0) (j := imuStateSize) (r := imuStateSize) (c := c2.cols - imuStateSize)
    (by simp only [imuStateSize]; omega) (by simp only [imuStateSize]; omega)
  obtain ⟨d1, d2, d3, d4, d5⟩ := DMat.block_spec (a := c2) (i := imuStateSize) (j := imuStateSize) (r := c2.cols - imuStateSize) (c := c2.cols - imuStateSize)
    (by simp only [imuStateSize]; omega) (by simp only [imuStateSize]; omega)
  obtain rfl : b1 = b := by rw [b2] at h2; cases h2; rfl
  obtain rfl : d1 = d := by rw [d2] at h3; cases h3; rfl
  have hn' : NoiseOk { u.q with items := { i0 with imuCov := a, imuEx := b1 } :: rest, exCamCov := d1 } := ⟨hn.fr, hn.fc, hn.gr, hn.gc, hn.qc, hn.psd⟩
  refine rep_zero z _ g hn' _ rest rfl ?_ ?_
  · intro i j hi hj
    dsimp only
    rw [b5]
    exact (hz2 j hj _ (by omega)).2
  · intro j hj l hl
    dsimp only at hl ⊢
    rw [d3] at hl
    rw [d5, d5]
    refine hz2 j hj _ ?_
    simp only [imuStateSize] at hl ⊢
    omega

/-! ### The correction of such components -/

theorem segment3_fixed {dx : DMat ℝ} {i : Nat} (hz : ∀ j, i ≤ j → j < i + 3 → dx.e j 0 = 0) {v : Vec3 ℝ} (h : dx.segment3 i = .ok v) : v = 0 := by
  unfold DMat.segment3 at h
  split at h
  · cases h
    apply Vec3.ext
    · exact hz _ (by omega) (by omega)
    · exact hz _ (by omega) (by omega)
    · exact hz _ (by omega) (by omega)
  · cases h

theorem corrExt_fixed (dx : DMat ℝ) (es : List (Extrinsic ℝ)) : ∀ i es', (∀ j, 15 + i * 6 ≤ j → j < 15 + (i + es.length) * 6 → dx.e j 0 = 0) →
    (∀ e ∈ es, e.q.sqNorm = 1) → corrExt dx i es = .ok es' → es' = es := by
  induction es with
  | nil => intro i es' _ _ h; cases h; rfl
  | cons e es ih =>
    intro i es' hz hu h
    rw [corrExt] at h
    obtain ⟨dp, h1, h⟩ := Res.bind_eq_ok.1 h
    obtain ⟨dr, h2, h⟩ := Res.bind_eq_ok.1 h
    obtain ⟨rest, h3, h⟩ := Res.bind_eq_ok.1 h
    cases h
    simp only [List.length_cons] at hz
    simp only [imuStateSize] at h1 h2
    rw [segment3_fixed (fun j a b => hz j (by omega) (by omega)) h1, segment3_fixed (fun j a b => hz j (by omega) (by omega)) h2, corrQuat_zero _ (hu e (by simp)), vec_add_zero,
      ih _ _ (fun j a b => hz j (by omega) (by omega)) (fun e he => hu e (List.mem_cons_of_mem _ he)) h3]

theorem corrFrames_fixed (dx : DMat ℝ) (bid o : Nat) (st : Motion ℝ) (fs : List (Frame ℝ T)) : ∀ i fs' k f, corrFrames dx bid o st i fs = .ok fs' → fs[k]? = some f →
    f.id ≠ bid → f.q.sqNorm = 1 → (∀ j, o + (i + k) * 6 ≤ j → j < o + (i + k) * 6 + 6 → dx.e j 0 = 0) → fs'[k]? = some f := by
  induction fs with
  | nil => intro i fs' k f _ hk; simp at hk
  | cons f0 fs ih =>
    intro i fs' k f h hk hid hu hz
    rw [corrFrames] at h
    split at h
    · rename_i h0
      cases h
      cases k with
      | zero =>
        simp only [List.getElem?_cons_zero, Option.some.injEq] at hk
        subst hk
        exact absurd h0 hid
      | succ k => simpa using hk
    · obtain ⟨dp, h1, h⟩ := Res.bind_eq_ok.1 h
      obtain ⟨dr, h2, h⟩ := Res.bind_eq_ok.1 h
      obtain ⟨rest, h3, h⟩ := Res.bind_eq_ok.1 h
      cases h
      cases k with
      | zero =>
        simp only [List.getElem?_cons_zero, Option.some.injEq] at hk ⊢
        subst hk
        rw [segment3_fixed (fun j a b => hz j (by omega) (by omega)) h1, segment3_fixed (fun j a b => hz j (by omega) (by omega)) h2, corrQuat_zero _ hu, vec_add_zero]
      | succ k =>
        simp only [List.getElem?_cons_succ] at hk ⊢
        exact ih _ _ k f h3 hk hid hu (fun j a b => hz j (by omega) (by omega))

theorem correct_fixed (dx : DMat ℝ) (s s' : PropQueue ℝ T) (m m' : FrameMgr ℝ T) (h : correct dx s m = .ok (s', m')) :
    ((∀ j, 15 ≤ j → j < 15 + m.extrinsics.length * 6 → dx.e j 0 = 0) → (∀ e ∈ m.extrinsics, e.q.sqNorm = 1) → m'.extrinsics = m.extrinsics) ∧
    ∀ k f b, m.frames.getLast? = some b → m.frames[k]? = some f → f.id ≠ b.id → f.q.sqNorm = 1 →
      (∀ j, 15 + m.extrinsics.length * 6 + k * 6 ≤ j → j < 15 + m.extrinsics.length * 6 + k * 6 + 6 → dx.e j 0 = 0) → m'.frames[k]? = some f := by
  unfold correct at h
  split at h
  · cases h
  · obtain ⟨dp, h1, h⟩ := Res.bind_eq_ok.1 h
    obtain ⟨dv, h2, h⟩ := Res.bind_eq_ok.1 h
    obtain ⟨dr, h3, h⟩ := Res.bind_eq_ok.1 h
    obtain ⟨dba, h4, h⟩ := Res.bind_eq_ok.1 h
    obtain ⟨dbg, h5, h⟩ := Res.bind_eq_ok.1 h
    obtain ⟨ex, h6, h⟩ := Res.bind_eq_ok.1 h
    obtain ⟨b, h7, h⟩ := Res.bind_eq_ok.1 h
    obtain ⟨fs, h8, h⟩ := Res.bind_eq_ok.1 h
    cases h
    refine ⟨fun hz hu => corrExt_fixed dx _ 0 ex (fun j a b => hz j (by omega) (by omega)) hu h6, ?_⟩
    intro k f b' hb hk hid hu hz
    have hbb : b' = b := by
      unfold back at h7
      rw [hb] at h7
      cases h7; rfl
    subst hbb
    exact corrFrames_fixed dx _ _ _ _ 0 fs k f h8 hk hid hu (fun j a b => hz j (by simp only [imuStateSize] at a; omega) (by simp only [imuStateSize] at b; omega))

end Vio
