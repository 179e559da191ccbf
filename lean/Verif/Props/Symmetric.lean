/-
C134: symmetry of the covariance under rounding.
-/
import Verif.Props.FilterCov
import Verif.Props.Ieee
import Verif.Lemmas.Agree
import Mathlib.Data.Rat.Floor

set_option linter.unusedSectionVars false

namespace Vio

open Spec

namespace Update

section general
variable {K T : Type} [Add K] [Sub K] [Mul K] [Neg K] [Div K] [Zero K] [One K] [ScalarFn K] [TimeOps T] [TimeCast T K]

/-- Addition that commutes, as it does in floating point, is all that the correction of the covariance needs to give a symmetric matrix. -/
theorem kalman_symm (hadd : ∀ a b : K, a + b = b + a) (ext : Ext K) (noise : K) (P a : DMat K) (k : Kalman K) (h : kalman ext noise P a = .ok k) :
    (∀ i j, k.cov.e i j = k.cov.e j i) ∧ k.cov.rows = P.rows ∧ k.cov.cols = P.rows ∧ ∀ i j, ∃ x y : K, k.cov.e i j = x * y := by
  unfold kalman at h
  obtain ⟨H, -, h⟩ := (Res.bind_eq_ok ..).1 h
  obtain ⟨r, -, h⟩ := (Res.bind_eq_ok ..).1 h
  obtain ⟨PHt, p1, h⟩ := (Res.bind_eq_ok ..).1 h
  obtain ⟨S, -, h⟩ := (Res.bind_eq_ok ..).1 h
  obtain ⟨g, p2, h⟩ := (Res.bind_eq_ok ..).1 h
  obtain ⟨dx, -, h⟩ := (Res.bind_eq_ok ..).1 h
  obtain ⟨I, p3, h⟩ := (Res.bind_eq_ok ..).1 h
  obtain ⟨N, p4, h⟩ := (Res.bind_eq_ok ..).1 h
  obtain ⟨U, p5, h⟩ := (Res.bind_eq_ok ..).1 h
  cases h
  unfold DMat.mul at p1 p2 p3 p4
  unfold DMat.add at p5
  split at p1
  · split at p2
    · split at p3
      · split at p4
        · split at p5
          · rename_i hd
            cases p1; cases p2; cases p3; cases p4; cases p5
            refine ⟨fun i j => ?_, rfl, ?_, fun i j => ⟨_, _, rfl⟩⟩
            · show _ * (_ + _) = _ * (_ + _)
              rw [hadd]
              rfl
            · exact hd.2
          · cases p5
        · cases p4
      · cases p3
    · cases p2
  · cases p1

/-- An entry of the covariance of the cloned pose. -/
def cloneEntry (a : Nat → Nat → K) (i j : Nat) : K := sumTo 15 fun l => sumTo 15 (fun k => (expandJ : DMat K).e i k * a k l) * (expandJ : DMat K).e j l

/-- The augmented covariance is as symmetric as the given one and the block of the new pose. -/
theorem expand_symm (junk : Nat → Nat → K) (m : FrameMgr K T) (c c' : DMat K) (n : Nat) (hf : m.frames ≠ [])
    (hn : n + 6 = 15 + (m.extrinsics.length + m.frames.length) * 6) (hr : c.rows = n) (hc : c.cols = n) (hs : SymmTo n c.e)
    (hb : ∀ i j, i < 6 → j < 6 → cloneEntry c.e i j = cloneEntry c.e j i) (h : expand junk m c = .ok c') : c'.rows = n + 6 ∧ c'.cols = n + 6 ∧ SymmTo (n + 6) c'.e := by
  have hpos : 0 < m.frames.length := List.length_pos_iff.2 hf
  have hn15 : 15 ≤ n := by omega
  have hcam : (m.extrinsics.length + m.frames.length) * 6 = n + 6 - 15 := by omega
  have e1 : imuStateSize + (n + 6 - 15) = n + 6 := by simp only [imuStateSize]; omega
  have e2 : n + 6 - 6 = n := by omega
  have e3 : n + 6 - 15 - 6 = n - 15 := by omega
  unfold expand at h
  simp only [hcam, e1, e2, e3, imuStateSize] at h
  have e0 : ∀ x y, x < n → y < n → (c.conservativeResize junk (n + 6) (n + 6)).e x y = c.e x y := by
    intro x y hx hy
    simp [DMat.conservativeResize, hr, hc, hx, hy]
  obtain ⟨c1, h1, r1, k1, f1⟩ := DMat.setBlock_spec (a := c.conservativeResize junk (n + 6) (n + 6)) (i := 0) (j := n) (r := n + 6) (c := 6)
    (b := .zero (n + 6) 6) (by simp) (by simp) rfl rfl
  rw [h1, Res.bind_ok] at h
  rw [DMat.cr_rows] at r1; rw [DMat.cr_cols] at k1
  obtain ⟨c2, h2, r2, k2, f2⟩ := DMat.setBlock_spec (a := c1) (i := n) (j := 0) (r := 6) (c := n + 6) (b := .zero 6 (n + 6)) (by omega) (by omega) rfl rfl
  rw [h2, Res.bind_ok] at h
  have g2 : ∀ x y, x < n → y < n → c2.e x y = c.e x y := by
    intro x y hx hy
    rw [f2, if_neg (by omega), f1, if_neg (by omega), e0 x y hx hy]
  obtain ⟨ic, h3, r3, k3, f3⟩ := DMat.block_spec (a := c2) (i := 0) (j := 0) (r := 15) (c := 15) (by omega) (by omega)
  rw [h3, Res.bind_ok] at h
  obtain ⟨ie, h4, r4, k4, f4⟩ := DMat.block_spec (a := c2) (i := 0) (j := 15) (r := 15) (c := n - 15) (by omega) (by omega)
  rw [h4, Res.bind_ok] at h
  obtain ⟨c5, h5, r5, k5, f5⟩ := DMat.setBlock_spec (a := c2) (i := n) (j := 0) (r := 6) (c := 15) (b := (expandJ : DMat K).mulF ic) (by omega) (by omega) rfl k3
  rw [h5, Res.bind_ok] at h
  obtain ⟨c6, h6, r6, k6, f6⟩ := DMat.setBlock_spec (a := c5) (i := n) (j := 15) (r := 6) (c := n - 15) (b := (expandJ : DMat K).mulF ie) (by omega) (by omega) rfl k4
  rw [h6, Res.bind_ok] at h
  obtain ⟨b, h7, r7, k7, f7⟩ := DMat.block_spec (a := c6) (i := n) (j := 0) (r := 6) (c := n) (by omega) (by omega)
  rw [h7, Res.bind_ok] at h
  obtain ⟨c8, h8, r8, k8, f8⟩ := DMat.setBlock_spec (a := c6) (i := 0) (j := n) (r := n) (c := 6) (b := b.transpose) (by omega) (by omega) k7 r7
  rw [h8, Res.bind_ok] at h
  obtain ⟨c9, h9, r9, k9, f9⟩ := DMat.setBlock_spec (a := c8) (i := n) (j := n) (r := 6) (c := 6)
    (b := ((expandJ : DMat K).mulF ic).mulF (expandJ : DMat K).transpose) (by omega) (by omega) rfl rfl
  obtain rfl : c9 = c' := by rw [h9] at h; cases h; rfl
  refine ⟨by omega, by omega, ?_⟩
  have new : ∀ i j, n ≤ i → i < n + 6 → n ≤ j → j < n + 6 → c9.e i j = cloneEntry c.e (i - n) (j - n) := by
    intro i j hi hi' hj hj'
    rw [f9, if_pos (by omega)]
    have hic : ∀ x y, x < 15 → y < 15 → ic.e x y = c.e x y := fun x y hx hy => by rw [f3, g2 _ _ (by omega) (by omega), Nat.zero_add, Nat.zero_add]
    have hsum : ∀ (n : Nat) (f g : Nat → K), (∀ k < n, f k = g k) → sumTo n f = sumTo n g := fun n f g hfg => by
      induction n with
      | zero => rfl
      | succ n ih => rw [sumTo, sumTo, ih fun k hk => hfg k (by omega), hfg n (by omega)]
    show sumTo ic.cols (fun l => sumTo 15 (fun k => (expandJ : DMat K).e (i - n) k * ic.e k l) * (expandJ : DMat K).e (j - n) l) = _
    rw [k3]
    refine hsum _ _ _ fun l hl => ?_
    congr 1
    refine hsum _ _ _ fun k hk => ?_
    rw [hic k l hk hl]
  have side : ∀ i j, i < n → n ≤ j → j < n + 6 → c9.e i j = c9.e j i := by
    intro i j hi hj hj'
    rw [f9, if_neg (by omega), f8, if_pos (by omega), f9, if_neg (by omega), f8, if_neg (by omega)]
    show b.e (j - n) (i - 0) = _
    rw [f7, show n + (j - n) = j by omega, Nat.zero_add, Nat.sub_zero]
  intro i j hi hj
  by_cases hin : i < n <;> by_cases hjn : j < n
  · have old : ∀ i j, i < n → j < n → c9.e i j = c.e i j := fun i j hi hj => by
      rw [f9, if_neg (by omega), f8, if_neg (by omega), f6, if_neg (by omega), f5, if_neg (by omega), g2 i j hi hj]
    rw [old i j hin hjn, old j i hjn hin]
    exact hs i j hin hjn
  · exact side i j hin (by omega) hj
  · exact (side j i hjn (by omega) hi).symm
  · rw [new i j (by omega) hi (by omega) hj, new j i (by omega) hj (by omega) hi]
    exact hb _ _ (by omega) (by omega)

theorem reduce_symm (junk : Nat → Nat → K) (policy : MargPolicy) (m : FrameMgr K T) (c c' : DMat K) (h2 : policy = .noMarg ∨ 2 ≤ m.frames.length)
    (hr : c.rows = 15 + (m.extrinsics.length + m.frames.length) * 6) (hc : c.cols = c.rows) (hp : SymmTo c.rows c.e) (h : reduce junk policy m c = .ok c') :
    15 ≤ c'.rows ∧ c'.cols = c'.rows ∧ SymmTo c'.rows c'.e := by
  by_cases hno : policy = .noMarg
  · subst hno
    cases h
    exact ⟨by omega, hc, hp⟩
  · have h2 := h2.resolve_left hno
    obtain ⟨d, hd⟩ : ∃ d, dropIndex m.frames.length policy = some d := by
      cases policy with
      | noMarg => exact absurd rfl hno
      | margOldest => exact ⟨_, rfl⟩
      | margSubnew => exact ⟨_, rfl⟩
      | margNewest => exact ⟨_, rfl⟩
    obtain ⟨c1, k1, k2, k3, k4⟩ := C43_reduce junk policy m c c.rows d h2 hr rfl hc hp hd
    obtain rfl : c1 = c' := by rw [k1] at h; cases h; rfl
    refine ⟨by omega, by omega, fun i j hi hj => ?_⟩
    have hlt : ∀ i < c1.rows, skipIdx (15 + m.extrinsics.length * 6 + d * 6) i < c.rows := by
      intro i hi
      unfold skipIdx
      split <;> omega
    rw [k4 i j (by omega) (by omega), k4 j i (by omega) (by omega)]
    exact hp _ _ (hlt i hi) (hlt j hj)

/-- The stored covariance: that of the first item and of the poses. -/
def StoredSymm (s : PropQueue K T) : Prop := ∃ i0 rest, s.items = i0 :: rest ∧ SymmTo 15 i0.imuCov.e ∧ SymmTo s.exCamCov.rows s.exCamCov.e

theorem storeCov_symm (s s' : PropQueue K T) (c : DMat K) (hr : 15 ≤ c.rows) (hc : c.cols = c.rows) (hp : SymmTo c.rows c.e) (h : storeCov s c = .ok s') : StoredSymm s' := by
  unfold storeCov at h
  split at h
  · cases h
  · obtain ⟨a, h1, h⟩ := Res.bind_eq_ok.1 h
    obtain ⟨b, h2, h⟩ := Res.bind_eq_ok.1 h
    obtain ⟨d, h3, h⟩ := Res.bind_eq_ok.1 h
    cases h
    unfold DMat.block at h1 h3
    split at h1
    · split at h3
      · cases h1
        cases h3
        refine ⟨_, _, rfl, fun i j hi hj => ?_, fun i j hi hj => ?_⟩
        · exact hp _ _ (by omega) (by omega)
        · have e : imuStateSize = 15 := rfl
          dsimp only at hi hj
          exact hp _ _ (by omega) (by omega)
      · cases h3
    · cases h1

theorem finish_symm (env : Env K) (g : Vec3 K) (u u' : Upd K T) (b : Bool) (hf : u.w.frm.frames ≠ []) (h2 : u.policy = .noMarg ∨ 2 ≤ u.w.frm.frames.length)
    (hr : u.cov.rows + 6 = 15 + (u.w.frm.extrinsics.length + u.w.frm.frames.length) * 6) (hc : u.cov.cols = u.cov.rows) (hs : SymmTo u.cov.rows u.cov.e)
    (hb : ∀ i j, i < 6 → j < 6 → cloneEntry u.cov.e i j = cloneEntry u.cov.e j i) (h : finish env g u = .ok (b, u')) : SymmTo u'.cov.rows u'.cov.e ∧ StoredSymm u'.q := by
  unfold finish at h
  obtain ⟨c1, h1, h⟩ := Res.bind_eq_ok.1 h
  obtain ⟨c2, h3, h⟩ := Res.bind_eq_ok.1 h
  obtain ⟨s, h4, h⟩ := Res.bind_eq_ok.1 h
  cases h
  obtain ⟨e1, e2, e3⟩ := expand_symm env.junk u.w.frm u.cov c1 u.cov.rows hf hr rfl hc hs hb h1
  obtain ⟨r1, r2, r3⟩ := reduce_symm env.junk u.policy u.w.frm c1 c2 h2 (by omega) (by omega) (by rw [e1]; exact e3) h3
  refine ⟨r3, ?_⟩
  obtain ⟨i0, rest, s1, s2, s3⟩ := storeCov_symm u.q s c2 r1 r2 r3 h4
  have e1 : (s.repropagate g).items = i0 :: (PropQueue.repropLoop g s i0 rest).2 := by
    unfold PropQueue.repropagate
    rw [s1]
  have e2 : (s.repropagate g).exCamCov = s.exCamCov := by
    unfold PropQueue.repropagate
    rw [s1]
    exact repropLoop_exCam g _ _ _
  exact ⟨i0, _, e1, s2, by dsimp only; rw [e2]; exact s3⟩

/-- An update that used features leaves a symmetric covariance, for every kind of number whose addition commutes and whose cloned pose has a symmetric block. -/
theorem update_symm (hadd : ∀ a b : K, a + b = b + a)
    (hb : ∀ a : Nat → Nat → K, (∀ i j, a i j = a j i) → (∀ i j, ∃ x y, a i j = x * y) → ∀ i j, i < 6 → j < 6 → cloneEntry a i j = cloneEntry a j i)
    (env : Env K) (noise : K) (maxUsed : Nat) (g : Vec3 K) (u u' : Upd K T) (ts thr : T)
    (hf : u.w.frm.frames ≠ []) (hlt : (u.w.frm.extrinsics.length + u.w.frm.frames.length) * 6 < two32)
    (h : update env noise maxUsed g u ts thr = .ok (true, u')) (hfs : u'.features ≠ []) : SymmTo u'.cov.rows u'.cov.e ∧ StoredSymm u'.q := by
  unfold update at h
  generalize u.q.resetOrigin ts thr = q at h
  obtain ⟨s, found⟩ := q
  dsimp only at h
  split at h
  · cases h
  obtain ⟨policy, hp, h⟩ := Res.bind_eq_ok.1 h
  obtain ⟨⟨good1, c⟩, hc, h⟩ := Res.bind_eq_ok.1 h
  dsimp only at h hp hc
  split at h
  · cases h
  rename_i hg1
  obtain ⟨⟨good', mm⟩, hn, h⟩ := Res.bind_eq_ok.1 h
  dsimp only at h
  split at h
  · cases h
  obtain ⟨⟨w, fs, pos⟩, hs, h⟩ := Res.bind_eq_ok.1 h
  dsimp only at h hs hn
  have hpol : policy = .noMarg ∨ 2 ≤ u.w.frm.frames.length := by
    unfold decidePolicy at hp
    split at hp
    · split at hp
      · rename_i b sn rest hr
        right
        have := congrArg List.length hr
        simp at this
        omega
      · cases hp
    · cases hp; exact .inl rfl
  obtain ⟨n1, n2⟩ := updateNewest_length _ _ _ _ hn
  have hw : w.frm = mm := by
    unfold selectGood at hs
    obtain ⟨f, _, hs⟩ := Res.bind_eq_ok.1 hs
    obtain ⟨⟨w1, good1, pos1⟩, hl, hs⟩ := Res.bind_eq_ok.1 hs
    cases hs
    exact selectLoop_frm env _ _ _ _ _ _ _ hl
  have hpos : 0 < u.w.frm.frames.length := List.length_pos_iff.2 hf
  have cr : c.rows + 6 = 15 + (u.w.frm.extrinsics.length + u.w.frm.frames.length) * 6 := by
    unfold constructCov at hc
    obtain ⟨item, -, hc⟩ := Res.bind_eq_ok.1 hc
    dsimp only at hc
    split at hc
    · cases hc
      simp at hg1
    · obtain ⟨c1, h1, hc⟩ := Res.bind_eq_ok.1 hc
      obtain ⟨c2, h2, hc⟩ := Res.bind_eq_ok.1 hc
      obtain ⟨c3, h3, hc⟩ := Res.bind_eq_ok.1 hc
      obtain ⟨c4, h4, hc⟩ := Res.bind_eq_ok.1 hc
      cases hc
      have d1 := (DMat.setBlock_dims h1).1
      have d2 := (DMat.setBlock_dims h2).1
      have d3 := (DMat.setBlock_dims h3).1
      have d4 := (DMat.setBlock_dims h4).1
      have e1 : sub32 (u.w.frm.extrinsics.length + u.w.frm.frames.length) 1 = u.w.frm.extrinsics.length + u.w.frm.frames.length - 1 := by
        unfold sub32
        unfold two32 at *
        omega
      have e2 : mul32 (u.w.frm.extrinsics.length + u.w.frm.frames.length - 1) 6 = (u.w.frm.extrinsics.length + u.w.frm.frames.length - 1) * 6 := by
        unfold mul32
        exact Nat.mod_eq_of_lt (by omega)
      rw [e1, e2, DMat.zero_rows] at d1
      simp only [imuStateSize] at d1
      omega
  have hwf : w.frm.extrinsics.length = u.w.frm.extrinsics.length ∧ w.frm.frames.length = u.w.frm.frames.length := by rw [hw, n1, n2]; exact ⟨rfl, rfl⟩
  split at h
  · rename_i he
    exfalso
    unfold finish at h
    obtain ⟨_, _, h⟩ := Res.bind_eq_ok.1 h
    obtain ⟨_, _, h⟩ := Res.bind_eq_ok.1 h
    obtain ⟨_, _, h⟩ := Res.bind_eq_ok.1 h
    cases h
    exact hfs (List.isEmpty_iff.1 he)
  · obtain ⟨hx, hm, h⟩ := Res.bind_eq_ok.1 h
    split at h
    · cases h
    · rename_i hxr
      obtain ⟨u1, hu, h⟩ := Res.bind_eq_ok.1 h
      unfold updateState at hu
      obtain ⟨k, hk, hu⟩ := Res.bind_eq_ok.1 hu
      obtain ⟨⟨s1, m1⟩, hco, hu⟩ := Res.bind_eq_ok.1 hu
      dsimp only at hco hu hk
      cases hu
      obtain ⟨c1, c2, c3⟩ := correct_length _ _ _ _ _ hco
      obtain ⟨k1, k2, k3, k4⟩ := kalman_symm hadd env.ext noise c hxr k hk
      refine finish_symm env g _ u' true ?_ ?_ ?_ (by dsimp only; omega) (fun i j _ _ => k1 i j) (fun i j h1 h2 => ?_) h
      · dsimp only; exact List.length_pos_iff.1 (by omega)
      · dsimp only; rw [c2, hwf.2]; exact hpol
      · dsimp only; rw [c1, c2, hwf.1, hwf.2, k2]; exact cr
      · exact hb _ k1 k4 i j h1 h2

end general

/-! ### Floating point -/

section floats
open Fl
variable {m : Arith} {T : Type} [TimeOps T]

theorem fl_add_comm (a b : Fl m) : a + b = b + a := by
  change Fl.add a b = Fl.add b a
  cases a <;> cases b <;> simp only [Fl.add]
  · rw [add_comm]
  · rename_i s t
    cases s <;> cases t <;> rfl

/-- A value that the arithmetic has: rounding does not change it. -/
def Rep (x : Fl m) : Prop := ∀ v, x = fin v → (Fl.round v : Fl m) = fin v

theorem round_zero : (Fl.round 0 : Fl m) = fin 0 := by
  unfold Fl.round
  rw [m.zero, abs_zero, if_pos (by linarith [m.max_ge])]

theorem rep_round (hi : ∀ x, m.rnd (m.rnd x) = m.rnd x) (x : ℝ) : Rep (Fl.round x : Fl m) := by
  intro v hv
  unfold Fl.round at hv
  split at hv
  · rename_i h
    cases hv
    unfold Fl.round
    rw [hi, if_pos h]
  · cases hv

theorem rep_mul (hi : ∀ x, m.rnd (m.rnd x) = m.rnd x) (x y : Fl m) : Rep (x * y) := by
  change Rep (Fl.mul x y)
  cases x <;> cases y <;> simp only [Fl.mul, Fl.infBy]
  · exact rep_round hi _
  · split <;> exact fun v h => nomatch h
  · exact fun v h => nomatch h
  · split <;> exact fun v h => nomatch h
  all_goals exact fun v h => nomatch h

theorem zero_add' {x : Fl m} (h : Rep x) : (0 : Fl m) + x = x := by
  change Fl.add (fin 0) x = x
  cases x with
  | fin v => rw [Fl.add, zero_add]; exact h v rfl
  | inf s => rfl
  | nan => rfl

theorem add_zero' {x : Fl m} (h : Rep x) : x + 0 = x := by rw [fl_add_comm, zero_add' h]

theorem rep_zero : Rep (0 : Fl m) := by
  intro v h
  cases h
  exact round_zero

theorem sumTo_single (f : Nat → Fl m) (s : Nat) (hf : ∀ k, k ≠ s → f k = 0) (hs : Rep (f s)) (n : Nat) : sumTo n f = if s < n then f s else 0 := by
  induction n with
  | zero => rfl
  | succ n ih =>
    rw [sumTo, ih]
    by_cases h : s = n
    · subst h
      rw [if_neg (lt_irrefl _), if_pos (Nat.lt_succ_self _), zero_add' hs]
    · rw [hf n (Ne.symm h)]
      by_cases h2 : s < n
      · rw [if_pos h2, if_pos (by omega), add_zero' hs]
      · rw [if_neg h2, if_neg (by omega), add_zero' rep_zero]

theorem sumTo_nan (f : Nat → Fl m) (n k : Nat) (hk : k < n) (h : f k = nan) : sumTo n f = nan := by
  induction n with
  | zero => omega
  | succ n ih =>
    rw [sumTo]
    by_cases hkn : k = n
    · subst hkn
      rw [h, fl_add_comm]
      rfl
    · rw [ih (by omega)]
      rfl

/-- Infinite or not a number. -/
def Bad (x : Fl m) : Prop := ∀ v, x ≠ fin v

theorem bad_add {x : Fl m} (h : Bad x) (y : Fl m) : Bad (x + y) := by
  change Bad (Fl.add x y)
  cases x with
  | fin v => exact absurd rfl (h v)
  | inf s =>
    cases y with
    | fin v => exact fun v h => nomatch h
    | inf t =>
      simp only [Fl.add]
      split <;> exact fun v h => nomatch h
    | nan => exact fun v h => nomatch h
  | nan => exact fun v h => nomatch h

theorem sumTo_bad (f : Nat → Fl m) (n k : Nat) (hk : k < n) (h : Bad (f k)) : Bad (sumTo n f) := by
  induction n with
  | zero => omega
  | succ n ih =>
    rw [sumTo]
    by_cases hkn : k = n
    · subst hkn
      rw [fl_add_comm]
      exact bad_add h _
    · exact bad_add (ih (by omega)) _

theorem zero_mul_bad {x : Fl m} (h : Bad x) : (0 : Fl m) * x = nan := by
  change Fl.mul (fin 0) x = nan
  cases x with
  | fin v => exact absurd rfl (h v)
  | inf s => simp [Fl.mul, Fl.infBy]
  | nan => rfl

theorem bad_mul_zero {x : Fl m} (h : Bad x) : x * (0 : Fl m) = nan := by
  change Fl.mul x (fin 0) = nan
  cases x with
  | fin v => exact absurd rfl (h v)
  | inf s => simp [Fl.mul, Fl.infBy]
  | nan => rfl

theorem one_mul_bad {x : Fl m} (h : Bad x) : Bad ((1 : Fl m) * x) := by
  change Bad (Fl.mul (fin 1) x)
  cases x with
  | fin v => exact absurd rfl (h v)
  | inf s => simp only [Fl.mul, Fl.infBy, one_ne_zero, if_false]; exact fun v h => nomatch h
  | nan => exact fun v h => nomatch h

theorem one_mul' {x : Fl m} (h : Rep x) (hx : ¬ Bad x) : (1 : Fl m) * x = x ∧ x * 1 = x ∧ (0 : Fl m) * x = 0 ∧ x * 0 = 0 := by
  change Fl.mul (fin 1) x = x ∧ Fl.mul x (fin 1) = x ∧ Fl.mul (fin 0) x = fin 0 ∧ Fl.mul x (fin 0) = fin 0
  cases x with
  | fin v =>
    simp only [Fl.mul, one_mul, mul_one, zero_mul, mul_zero]
    exact ⟨h v rfl, h v rfl, round_zero, round_zero⟩
  | inf s => exact absurd (fun v h => nomatch h) hx
  | nan => exact absurd (fun v h => nomatch h) hx

theorem expandJ_fl [FlLib m] (i k : Nat) (hi : i < 6) (hk : k < 15) : (expandJ : DMat (Fl m)).e i k = if k = cloneIdx 15 (15 + i) then 1 else 0 := by
  interval_cases i <;> interval_cases k <;> rfl

theorem clone_inj {i j : Nat} (hi : i < 6) (hj : j < 6) (h : cloneIdx 15 (15 + i) = cloneIdx 15 (15 + j)) : i = j := by
  unfold cloneIdx at h
  split_ifs at h <;> omega

/-- The block of the new pose is symmetric if the covariance is, with infinities and NaN as well. -/
theorem clone_symm [FlLib m] (a : Nat → Nat → Fl m) (hs : SymmTo 15 a) (hr : ∀ i j, Rep (a i j)) (i j : Nat) (hi : i < 6) (hj : j < 6) : cloneEntry a i j = cloneEntry a j i := by
  by_cases hij : i = j
  · rw [hij]
  by_cases hb : ∃ k l, k < 15 ∧ l < 15 ∧ Bad (a k l)
  · obtain ⟨k, l, hk, hl, hb⟩ := hb
    have key : ∀ i j, i < 6 → j < 6 → i ≠ j → cloneEntry a i j = nan := by
      intro i j hi hj hij
      have row : ∀ k l, k < 15 → l < 15 → Bad (a k l) → k ≠ cloneIdx 15 (15 + i) → cloneEntry a i j = nan := by
        intro k l hk hl hb hki
        refine sumTo_nan _ 15 l hl ?_
        rw [sumTo_nan _ 15 k hk (by rw [expandJ_fl i k hi hk, if_neg hki, zero_mul_bad hb])]
        rfl
      by_cases h1 : k = cloneIdx 15 (15 + i)
      · by_cases h2 : l = cloneIdx 15 (15 + i)
        · refine sumTo_nan _ 15 l hl ?_
          have h3 : ¬ l = cloneIdx 15 (15 + j) := fun h => hij (clone_inj hi hj (h2.symm.trans h))
          rw [expandJ_fl j l hj hl, if_neg h3]
          refine bad_mul_zero (sumTo_bad _ 15 k hk ?_)
          rw [expandJ_fl i k hi hk, if_pos h1]
          exact one_mul_bad hb
        · exact row l k hl hk (by rw [hs l k hl hk]; exact hb) h2
      · exact row k l hk hl hb h1
    rw [key i j hi hj hij, key j i hj hi (Ne.symm hij)]
  · have fine : ∀ k l, k < 15 → l < 15 → ¬ Bad (a k l) := fun k l hk hl h => hb ⟨k, l, hk, hl, h⟩
    have hlt : ∀ i < 6, cloneIdx 15 (15 + i) < 15 := fun i hi => by unfold cloneIdx; split_ifs <;> omega
    have ext : ∀ (n : Nat) (f g : Nat → Fl m), (∀ k < n, f k = g k) → sumTo n f = sumTo n g := fun n f g hfg => by
      induction n with
      | zero => rfl
      | succ n ih => rw [sumTo, sumTo, ih fun k hk => hfg k (by omega), hfg n (by omega)]
    have inner : ∀ i l, i < 6 → l < 15 → sumTo 15 (fun k => (expandJ : DMat (Fl m)).e i k * a k l) = a (cloneIdx 15 (15 + i)) l := by
      intro i l hi hl
      have e : sumTo 15 (fun k => (expandJ : DMat (Fl m)).e i k * a k l) = sumTo 15 (fun k => if k = cloneIdx 15 (15 + i) then a k l else 0) := by
        refine ext 15 _ _ fun k hk => ?_
        have o := one_mul' (hr k l) (fine k l hk hl)
        rw [expandJ_fl i k hi hk]
        split
        · exact o.1
        · exact o.2.2.1
      rw [e, sumTo_single _ (cloneIdx 15 (15 + i)) (fun k hk => if_neg hk) (by rw [if_pos rfl]; exact hr _ _), if_pos (hlt i hi), if_pos rfl]
    have outer : ∀ i j, i < 6 → j < 6 → cloneEntry a i j = a (cloneIdx 15 (15 + i)) (cloneIdx 15 (15 + j)) := by
      intro i j hi hj
      have e : cloneEntry a i j = sumTo 15 (fun l => if l = cloneIdx 15 (15 + j) then a (cloneIdx 15 (15 + i)) l else 0) := by
        refine ext 15 _ _ fun l hl => ?_
        have o := one_mul' (hr (cloneIdx 15 (15 + i)) l) (fine _ l (hlt i hi) hl)
        rw [inner i l hi hl, expandJ_fl j l hj hl]
        split
        · exact o.2.1
        · exact o.2.2.2
      rw [e, sumTo_single _ (cloneIdx 15 (15 + j)) (fun k hk => if_neg hk) (by rw [if_pos rfl]; exact hr _ _), if_pos (hlt j hj), if_pos rfl]
    rw [outer i j hi hj, outer j i hj hi]
    exact hs _ _ (hlt i hi) (hlt j hj)

/-- C134, what holds: after every update that uses features the covariance of the filter, and the part of it that is stored with the propagator, is symmetric to the last bit, for every floating point arithmetic in which a rounded number is
not rounded again, with overflow, infinities and NaN.  Missing: updates without features and the propagation, where it is false (`C134_propagation`). -/
theorem C134_update_partial [FlLib m] [TimeCast T (Fl m)] (hi : ∀ x, m.rnd (m.rnd x) = m.rnd x) (env : Env (Fl m)) (noise : Fl m) (maxUsed : Nat) (g : Vec3 (Fl m)) (u u' : Upd (Fl m) T) (ts thr : T)
    (hf : u.w.frm.frames ≠ []) (hlt : (u.w.frm.extrinsics.length + u.w.frm.frames.length) * 6 < two32)
    (h : update env noise maxUsed g u ts thr = .ok (true, u')) (hfs : u'.features ≠ []) : SymmTo u'.cov.rows u'.cov.e ∧ StoredSymm u'.q := by
  refine update_symm fl_add_comm (fun a hs hp i j h1 h2 => ?_) env noise maxUsed g u u' ts thr hf hlt h hfs
  refine clone_symm _ (fun i j _ _ => hs i j) (fun i j => ?_) i j h1 h2
  obtain ⟨x, y, e⟩ := hp i j
  rw [e]
  exact rep_mul hi x y

/-- C134 in single precision. -/
theorem C134_single_partial [FlLib fp32] [TimeCast T (Fl fp32)] (env : Env (Fl fp32)) (noise : Fl fp32) (maxUsed : Nat) (g : Vec3 (Fl fp32)) (u u' : Upd (Fl fp32) T) (ts thr : T)
    (hf : u.w.frm.frames ≠ []) (hlt : (u.w.frm.extrinsics.length + u.w.frm.frames.length) * 6 < two32)
    (h : update env noise maxUsed g u ts thr = .ok (true, u')) (hfs : u'.features ≠ []) : SymmTo u'.cov.rows u'.cov.e ∧ StoredSymm u'.q :=
  C134_update_partial fp32_idem env noise maxUsed g u u' ts thr hf hlt h hfs

end floats

/-! ### A case -/

theorem sumTo_pick (f : Nat → ℚ) (s : Nat) (hf : ∀ k, k ≠ s → f k = 0) (n : Nat) : sumTo n f = if s < n then f s else 0 := by
  induction n with
  | zero => rfl
  | succ n ih =>
    show sumTo n f + f n = _
    rw [ih]
    rcases Nat.lt_trichotomy s n with h | h | h
    · rw [hf n (by omega), if_pos h, if_pos (by omega), add_zero]
    · subst h; simp
    · rw [hf n (by omega), if_neg (by omega), if_neg (by omega), add_zero]

theorem clone_rat (a : Nat → Nat → ℚ) (hs : ∀ i j, a i j = a j i) (i j : Nat) (hi : i < 6) (hj : j < 6) : cloneEntry a i j = cloneEntry a j i := by
  have hJ : ∀ i k, i < 6 → k < 15 → (expandJ : DMat ℚ).e i k = if k = cloneIdx 15 (15 + i) then 1 else 0 := by
    intro i k hi hk
    interval_cases i <;> interval_cases k <;> rfl
  have hc : ∀ i, i < 6 → cloneIdx 15 (15 + i) < 15 := by intro i hi; interval_cases i <;> decide
  have key : ∀ i j, i < 6 → j < 6 → cloneEntry a i j = a (cloneIdx 15 (15 + i)) (cloneIdx 15 (15 + j)) := by
    intro i j hi hj
    unfold cloneEntry
    have e1 : ∀ l, sumTo 15 (fun k => (expandJ : DMat ℚ).e i k * a k l) = a (cloneIdx 15 (15 + i)) l := by
      intro l
      rw [sumTo_congr (g := fun k => (if k = cloneIdx 15 (15 + i) then 1 else 0) * a k l) (fun k hk => by rw [hJ i k hi hk])]
      rw [sumTo_pick _ (cloneIdx 15 (15 + i)) (fun k hk => by simp [hk]), if_pos (hc i hi)]
      simp
    rw [sumTo_congr (g := fun l => a (cloneIdx 15 (15 + i)) l * (if l = cloneIdx 15 (15 + j) then 1 else 0)) (fun l hl => by rw [e1, hJ j l hj hl])]
    rw [sumTo_pick _ (cloneIdx 15 (15 + j)) (fun k hk => by simp [hk]), if_pos (hc j hj)]
    simp
  rw [key i j hi hj, key j i hj hi, hs]

/-- The state of the case of C52: one camera, a window that grows from one to two frames, stored covariances that are not symmetric. -/
def symU : Upd ℚ ℚ := ⟨{ (PropQueue.init ⟨0, 0, .one⟩ : PropQueue ℚ ℚ) with
    items := [⟨⟨0, 0, .one⟩, exCov 15, ⟨15, 12, fun i j => i - j⟩, 0, 0, 1⟩, ⟨⟨0, 0, .one⟩, exCov 15, ⟨15, 12, fun i j => i - j⟩, 0, 0, 2⟩], exCamCov := exCov 12 },
    selWin, .noMarg, .zero 0 0, [], 0⟩

/-- C134: an update that uses two features and meets the hypotheses of `update_symm`. -/
example : ∃ u', update (T := ℚ) selEnv (1 : ℚ) 5 ⟨0, 0, 10⟩ symU 1 (1/2) = .ok (true, u') ∧ u'.features = [0, 1] ∧ SymmTo u'.cov.rows u'.cov.e ∧ StoredSymm u'.q := by
  have h : (update (T := ℚ) selEnv (1 : ℚ) 5 ⟨0, 0, 10⟩ symU 1 (1/2)).check (fun r => r.1 && decide (r.2.features = [0, 1])) = true := by decide +kernel
  cases e : update (T := ℚ) selEnv (1 : ℚ) 5 ⟨0, 0, 10⟩ symU 1 (1/2) with
  | ub t => rw [e] at h; cases h
  | ok r =>
    obtain ⟨b, u'⟩ := r
    rw [e] at h
    simp only [Res.check, Bool.and_eq_true, decide_eq_true_eq] at h
    obtain ⟨rfl, h2⟩ := h
    obtain ⟨h3, h4⟩ := update_symm add_comm (fun a hs _ i j h1 h2 => clone_rat a hs i j h1 h2) _ _ _ _ symU u' _ _ (by decide +kernel) (by decide +kernel) e (by rw [h2]; simp)
    exact ⟨u', rfl, h2, h3, h4⟩

end Update

/-! ### A single precision arithmetic that can be evaluated -/

/-- A single precision number, its range of exponents left unbounded. -/
structure F32 where
  v : ℚ
deriving DecidableEq

namespace F32

/-- A power of two. -/
def pow2 (e : Int) : ℚ := if 0 ≤ e then ((2 ^ e.toNat : Nat) : ℚ) else 1 / ((2 ^ (-e).toNat : Nat) : ℚ)

/-- The exponent of a number that is not zero. -/
def expo (x : ℚ) : Int :=
  let e : Int := (Nat.log2 x.num.natAbs : Int) - (Nat.log2 x.den : Int)
  if |x| < pow2 e then e - 1 else e

/-- Round half to even. -/
def half (y : ℚ) : Int :=
  let f := y.floor
  let r := y - f
  if r < 1 / 2 then f else if 1 / 2 < r then f + 1 else if f % 2 = 0 then f else f + 1

/-- Rounding to 24 bits. -/
def rnd (x : ℚ) : ℚ := if x = 0 then 0 else (half (x * pow2 (23 - expo x)) : ℚ) * pow2 (expo x - 23)

theorem pow2_eq (e : Int) : ((pow2 e : ℚ) : ℝ) = 2 ^ e := by
  unfold pow2
  split
  · rename_i h
    obtain ⟨n, rfl⟩ := Int.eq_ofNat_of_zero_le h
    simp
  · rename_i h
    obtain ⟨n, hn⟩ := Int.eq_ofNat_of_zero_le (show 0 ≤ -e by omega)
    obtain rfl : e = -(n : Int) := by omega
    simp

theorem half_eq (y : ℚ) : half y = rne (y : ℝ) := by
  have hf : y.floor = ⌊(y : ℝ)⌋ := (Rat.floor_cast (α := ℝ) y).symm
  have hr : ((y - (y.floor : ℚ) : ℚ) : ℝ) = Int.fract (y : ℝ) := by
    rw [Int.fract, ← hf]; push_cast; rfl
  have c1 : (y - (y.floor : ℚ) < 1 / 2) ↔ Int.fract (y : ℝ) < 1 / 2 := by
    rw [← hr, ← Rat.cast_lt (K := ℝ)]; norm_num
  have c2 : (1 / 2 < y - (y.floor : ℚ)) ↔ 1 / 2 < Int.fract (y : ℝ) := by
    rw [← hr, ← Rat.cast_lt (K := ℝ)]; norm_num
  unfold half rne
  simp only [c1, c2, ← hf, Int.even_iff]

theorem expo_spec (x : ℚ) (h : x ≠ 0) : Int.log 2 |(x : ℝ)| = expo x := by
  have ha : x.num.natAbs ≠ 0 := by simpa using h
  have hb : x.den ≠ 0 := x.den_nz
  have a1 := Nat.log2_self_le ha
  have a2 := Nat.lt_log2_self (n := x.num.natAbs)
  have b1 := Nat.log2_self_le hb
  have b2 := Nat.lt_log2_self (n := x.den)
  generalize hA : x.num.natAbs = a at *
  generalize hB : x.den = b at *
  have hx : |(x : ℝ)| = (a : ℝ) / b := by
    have h1 : (x : ℝ) = (x.num : ℝ) / (x.den : ℝ) := Rat.cast_def x
    rw [h1, abs_div, hB, ← hA]
    simp
  have hbp : (0 : ℝ) < b := by exact_mod_cast Nat.pos_of_ne_zero hb
  have A1 : (2 : ℝ) ^ a.log2 ≤ a := by exact_mod_cast a1
  have A2 : (a : ℝ) < 2 ^ (a.log2 + 1) := by exact_mod_cast a2
  have B1 : (2 : ℝ) ^ b.log2 ≤ b := by exact_mod_cast b1
  have B2 : (b : ℝ) < 2 ^ (b.log2 + 1) := by exact_mod_cast b2
  have pa : (2 : ℝ) ^ a.log2 = 2 ^ ((a.log2 : Int) - b.log2) * 2 ^ b.log2 := by
    rw [← zpow_natCast, ← zpow_natCast, ← zpow_add₀ (by norm_num)]; congr 1; omega
  have lo : (2 : ℝ) ^ ((a.log2 : Int) - b.log2 - 1) ≤ |(x : ℝ)| := by
    rw [hx, le_div_iff₀ hbp, zpow_sub_one₀ (by norm_num)]
    have : (0 : ℝ) < 2 ^ ((a.log2 : Int) - b.log2) := by positivity
    have e : (2 : ℝ) ^ (b.log2 + 1) = 2 ^ b.log2 * 2 := pow_succ _ _
    nlinarith
  have hi : |(x : ℝ)| < 2 ^ ((a.log2 : Int) - b.log2 + 1) := by
    rw [hx, div_lt_iff₀ hbp, zpow_add_one₀ (by norm_num)]
    have : (0 : ℝ) < 2 ^ ((a.log2 : Int) - b.log2) := by positivity
    have e : (2 : ℝ) ^ (a.log2 + 1) = 2 ^ a.log2 * 2 := pow_succ _ _
    nlinarith
  have c : (|x| < pow2 ((a.log2 : Int) - b.log2)) ↔ |(x : ℝ)| < 2 ^ ((a.log2 : Int) - b.log2) := by
    rw [← pow2_eq, ← Rat.cast_abs, Rat.cast_lt]
  have key : ∀ e : Int, (2 : ℝ) ^ e ≤ |(x : ℝ)| → |(x : ℝ)| < 2 ^ (e + 1) → Int.log 2 |(x : ℝ)| = e := by
    intro e h1 h2
    have hp : 0 < |(x : ℝ)| := lt_of_lt_of_le (by positivity) h1
    have u := (Int.zpow_le_iff_le_log (b := 2) (by norm_num) hp (x := e)).1 (by exact_mod_cast h1)
    have v := (Int.lt_zpow_iff_log_lt (b := 2) (by norm_num) hp (x := e + 1)).1 (by exact_mod_cast h2)
    omega
  unfold expo
  simp only [hA, hB, c]
  split
  · rename_i h1
    exact key _ lo (by simpa using h1)
  · rename_i h1
    exact key _ (not_lt.1 h1) hi

/-- Away from subnormal numbers this is the rounding of IEEE single precision. -/
theorem rnd_eq (x : ℚ) (h : x = 0 ∨ (2 : ℝ) ^ (-126 : Int) ≤ |(x : ℝ)|) : ((rnd x : ℚ) : ℝ) = fp32.rnd x := by
  rcases h with rfl | h
  · rw [rnd, if_pos rfl]
    push_cast
    exact fp32.zero.symm
  have hx : x ≠ 0 := by
    rintro rfl
    have : (0 : ℝ) < 2 ^ (-126 : Int) := by positivity
    simp at h
    linarith
  have he : Vio.expo (-126) (x : ℝ) = expo x := by
    rw [Vio.expo, expo_spec x hx]
    refine max_eq_left ?_
    rw [← expo_spec x hx]
    exact (Int.zpow_le_iff_le_log (b := 2) (by norm_num) (lt_of_lt_of_le (by positivity) h)).1 (by exact_mod_cast h)
  show _ = rndBits 24 (-126) (x : ℝ)
  rw [rnd, if_neg hx, rndBits, he]
  push_cast
  rw [half_eq, pow2_eq]
  push_cast
  rw [pow2_eq, div_eq_mul_inv, ← zpow_neg]
  norm_num

instance : Zero F32 := ⟨⟨0⟩⟩
instance : One F32 := ⟨⟨1⟩⟩
instance : Add F32 := ⟨fun a b => ⟨rnd (a.v + b.v)⟩⟩
instance : Sub F32 := ⟨fun a b => ⟨rnd (a.v - b.v)⟩⟩
instance : Mul F32 := ⟨fun a b => ⟨rnd (a.v * b.v)⟩⟩
instance : Div F32 := ⟨fun a b => ⟨rnd (a.v / b.v)⟩⟩
instance : Neg F32 := ⟨fun a => ⟨-a.v⟩⟩

/-- The functions of the mathematical library are not used by the case below except for the root of one. -/
instance : ScalarFn F32 where
  lit q := ⟨rnd q⟩
  sqrt x := x
  fabs x := ⟨|x.v|⟩
  lt a b := decide (a.v < b.v)
  le a b := decide (a.v ≤ b.v)
  isNaN _ := false
  atan2 a _ := a
  acos a := a
  asin a := a
  log a := a

instance : TimeCast ℚ F32 := ⟨fun t => ⟨rnd t⟩, fun x => x.v⟩

/-- A filter at rest, noise 0.1 and 0.01, after two samples a tenth of a second apart. -/
def rest : PropQueue F32 ℚ :=
  ({ PropQueue.init ⟨0, 0, .one⟩ with Q := PropQueue.noiseMatrix (lit (1/10)) (lit (1/10)) (lit (1/100)) (lit (1/100)) } : PropQueue F32 ℚ).propagate 1 ⟨0, 0, lit (981/100)⟩
    ⟨0, 0, lit (981/100)⟩ 0 0 |>.propagate 1 ⟨0, 0, lit (981/100)⟩ ⟨0, 0, lit (981/100)⟩ 0 (1/10)

/-- C134 is false of the propagation: in single precision the first step from a covariance that is zero gives one that is not symmetric, the covariance of velocity and position differing from that of position and velocity, because
`(½·dt·dt·q)·dt` and `(dt·q)·(½·dt·dt)` round differently.  Nothing between this and the next update that uses features makes it symmetric (sequence_propagator.cpp:134). -/
theorem C134_propagation : ∃ i, rest.items.getLast? = some i ∧ i.ts = 1/10 ∧ i.imuCov.rows = 15 ∧ i.imuCov.e 3 0 ≠ i.imuCov.e 0 3 ∧
    |(i.imuCov.e 3 0).v - (i.imuCov.e 0 3).v| ≤ 2 / 2 ^ 24 * |(i.imuCov.e 3 0).v| := by
  refine ⟨_, rfl, ?_, ?_, ?_, ?_⟩ <;> decide +kernel

end F32
end Vio
