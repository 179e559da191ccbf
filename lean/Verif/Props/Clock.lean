/-
C136: the time steps of the filter under rounding.
-/
import Verif.Props.Ieee
import Verif.Model.Attitude
import Verif.Props.Symmetric

set_option linter.unusedSectionVars false

namespace Vio
open Fl PropQueue

namespace Clock

/-- Doubles and floats: a number that is not changed by rounding is an integer times a power of two. -/
theorem shape {p emin : ℤ} {x : ℝ} (hx : rndBits p emin x = x) : ∃ n : ℤ, x = (n : ℝ) * 2 ^ (expo emin x - (p - 1)) := ⟨_, hx.symm⟩

/-- The difference of two numbers within a factor of two is not rounded (Sterbenz). -/
theorem sterbenz {p emin : ℤ} (hp : 0 ≤ p) {x y : ℝ} (hx : rndBits p emin x = x) (hy : rndBits p emin y = y) (h0 : 0 < y) (h1 : y ≤ x) (h2 : x ≤ 2 * y) :
    rndBits p emin (x - y) = x - y ∧ ∃ N k : ℤ, x - y = (N : ℝ) * 2 ^ k ∧ k = expo emin y - (p - 1) := by
  obtain ⟨n, hn⟩ := shape hx
  obtain ⟨m, hm⟩ := shape hy
  have hE : expo emin y ≤ expo emin x := max_le_max (by rw [abs_of_pos h0, abs_of_pos (h0.trans_le h1)]; exact Int.log_mono_right h0 h1) le_rfl
  have hlt := lt_expo emin h0.le
  have hmin : emin ≤ expo emin y := le_max_right _ _
  generalize expo emin x = Ex at *
  generalize expo emin y = E at *
  obtain ⟨j, hj⟩ : ∃ j : ℕ, Ex - E = j := ⟨(Ex - E).toNat, by omega⟩
  have hd : x - y = ((n * 2 ^ j - m : ℤ) : ℝ) * 2 ^ (E - (p - 1)) := by
    have e1 : (2 : ℝ) ^ (Ex - (p - 1)) = 2 ^ j * 2 ^ (E - (p - 1)) := by
      rw [← zpow_natCast, ← zpow_add₀ two_ne_zero]; congr 1; omega
    rw [hn, hm, e1]
    push_cast
    ring
  refine ⟨?_, _, _, hd, rfl⟩
  rw [hd]
  refine rndBits_of_mul (P := p) ?_ hp (by omega) le_rfl
  have hpos : (0 : ℝ) < 2 ^ (E - (p - 1)) := by positivity
  have hb : x - y < 2 ^ p * 2 ^ (E - (p - 1)) := by
    rw [← zpow_add₀ two_ne_zero, show p + (E - (p - 1)) = E + 1 by ring]
    linarith
  rw [hd] at hb
  have hN : ((n * 2 ^ j - m : ℤ) : ℝ) < 2 ^ p := lt_of_mul_lt_mul_right hb hpos.le
  have hN0 : 0 ≤ ((n * 2 ^ j - m : ℤ) : ℝ) := by
    by_contra hc
    have := mul_neg_of_neg_of_pos (not_le.1 hc) hpos
    rw [← hd] at this
    linarith
  have e2 : (2 : ℝ) ^ p = ((2 ^ p.toNat : ℤ) : ℝ) := by
    push_cast
    rw [← zpow_natCast, Int.toNat_of_nonneg hp]
  rw [e2] at hN
  rw [abs_of_nonneg (by exact_mod_cast hN0)]
  exact_mod_cast hN

/-- Rounding twice is rounding once. -/
theorem rndBits_idem {p : ℕ} {emin : ℤ} (hp : 1 ≤ p) (x : ℝ) : rndBits p emin (rndBits p emin x) = rndBits p emin x := by
  obtain ⟨E, hE⟩ : ∃ E, expo emin x = E := ⟨_, rfl⟩
  have hE' : emin ≤ E := by rw [← hE]; exact le_max_right _ _
  have hpos : (0 : ℝ) < 2 ^ (E - ((p : ℤ) - 1)) := by positivity
  have hx : |x| / 2 ^ (E - ((p : ℤ) - 1)) ≤ 2 ^ (p : ℤ) := by
    have h1 := (lt_expo emin (abs_nonneg x)).le
    have h2 : expo emin |x| = E := by rw [← hE, expo, expo, abs_abs]
    rw [h2] at h1
    rw [div_le_iff₀ hpos, ← zpow_add₀ two_ne_zero, show (p : ℤ) + (E - ((p : ℤ) - 1)) = E + 1 by ring]
    exact h1
  have ep : rne ((2 : ℝ) ^ (p : ℤ)) = 2 ^ p := by
    have h3 : ((2 : ℝ) ^ (p : ℤ)) = ((2 ^ p : ℤ) : ℝ) := by push_cast; rw [zpow_natCast]
    rw [h3, rne_intCast]
  have hn : |rne (x / 2 ^ (E - ((p : ℤ) - 1)))| ≤ 2 ^ p := by
    have h1 : x / 2 ^ (E - ((p : ℤ) - 1)) ≤ 2 ^ (p : ℤ) := (div_le_div_of_nonneg_right (le_abs_self x) hpos.le).trans hx
    have h2 : -(2 : ℝ) ^ (p : ℤ) ≤ x / 2 ^ (E - ((p : ℤ) - 1)) := by
      have := div_le_div_of_nonneg_right (neg_abs_le x) hpos.le
      rw [neg_div] at this
      linarith
    have h3 := rne_mono h1
    have h4 := rne_mono h2
    rw [rne_neg] at h4
    rw [ep] at h3 h4
    exact abs_le.2 ⟨h4, h3⟩
  have hy : rndBits p emin x = (rne (x / 2 ^ (E - ((p : ℤ) - 1))) : ℝ) * 2 ^ (E - ((p : ℤ) - 1)) := by rw [rndBits, hE]
  generalize rne (x / 2 ^ (E - ((p : ℤ) - 1))) = n at hn hy
  rw [hy]
  rcases lt_or_eq_of_le hn with h | h
  · exact rndBits_of_mul (P := p) (by simpa using h) (by omega) (by omega) le_rfl
  · obtain ⟨s, hs, hn⟩ : ∃ s : ℤ, |s| < 2 ∧ n = s * 2 ^ p := by
      rcases (abs_eq (by positivity)).1 h with h | h
      · exact ⟨1, by norm_num, by omega⟩
      · exact ⟨-1, by norm_num, by omega⟩
    have e : (n : ℝ) * 2 ^ (E - ((p : ℤ) - 1)) = (s : ℝ) * 2 ^ (E + 1) := by
      rw [hn, show E + 1 = (E - ((p : ℤ) - 1)) + p by ring, zpow_add₀ two_ne_zero, zpow_natCast]
      push_cast
      ring
    rw [e]
    exact rndBits_of_mul (P := 1) (by simpa using hs) (by norm_num) (by omega) (by omega)

/-- A time stamp: a double. -/
abbrev Stamp := Rounded fp64.rounding

/-- A time stamp that is a double precision number. -/
def Stamp.IsDouble (t : Stamp) : Prop := fp64.rnd t.val = t.val

/-- Every time that the loader stores after removing the offset is a double precision number. -/
theorem isDouble_sub (a b : Stamp) : Stamp.IsDouble (TimeOps.sub a b) := rndBits_idem (p := 53) (by norm_num) _

variable [FlLib fp32] [FlWiden fp32 fp64.rounding]

theorem dt_eq (a b : Stamp) : (dt a b : Fl fp32) = Fl.round (fp64.rnd (b.val - a.val)) := rfl

/-- C136, the correctly rounded step: at every epoch, as long as the later time is at most twice the earlier one, the time step is the elapsed time rounded once, to single precision. -/
theorem C136_rounded_once (a b : Stamp) (ha : a.IsDouble) (hb : b.IsDouble) (h0 : 0 < a.val) (h1 : a.val ≤ b.val) (h2 : b.val ≤ 2 * a.val) :
    (dt a b : Fl fp32) = Fl.round (b.val - a.val) := by
  rw [dt_eq]
  exact congrArg _ (sterbenz (p := 53) (emin := -1022) (by norm_num) hb ha h0 h1 h2).1

/-- The error of a step relative to the elapsed time. -/
theorem step_error (e : ℝ) : |fp32.rnd (fp64.rnd e) - e| ≤ 2 ^ (-23 : ℤ) * |e| + 2 ^ (-149 : ℤ) := by
  have h1 := fp64.err e
  have h2 := fp32.err (fp64.rnd e)
  have h3 : |fp64.rnd e| ≤ |e| + |fp64.rnd e - e| := by
    calc |fp64.rnd e| = |e + (fp64.rnd e - e)| := by ring_nf
      _ ≤ _ := abs_add_le _ _
  have h4 : |fp32.rnd (fp64.rnd e) - e| ≤ |fp32.rnd (fp64.rnd e) - fp64.rnd e| + |fp64.rnd e - e| := by
    calc |fp32.rnd (fp64.rnd e) - e| = |(fp32.rnd (fp64.rnd e) - fp64.rnd e) + (fp64.rnd e - e)| := by ring_nf
      _ ≤ _ := abs_add_le _ _
  have u1 : fp64.u = 2 ^ (-53 : ℤ) := rfl
  have u2 : fp32.u = 2 ^ (-24 : ℤ) := rfl
  have u3 : fp64.eta = 2 ^ (-1022 - 53 : ℤ) := rfl
  have u4 : fp32.eta = 2 ^ (-126 - 24 : ℤ) := rfl
  rw [u1, u3] at h1
  rw [u2, u4] at h2
  have hn := abs_nonneg e
  have hk : (2 : ℝ) ^ (-1022 - 53 : ℤ) ≤ 2 ^ (-152 : ℤ) := zpow_le_zpow_right₀ (by norm_num) (by norm_num)
  have k2 : (2 : ℝ) ^ (-126 - 24 : ℤ) = 2 * 2 ^ (-151 : ℤ) := by rw [show (-126 - 24 : ℤ) = -151 + 1 by norm_num, zpow_add_one₀ (by norm_num)]; ring
  have k3 : (2 : ℝ) ^ (-149 : ℤ) = 4 * 2 ^ (-151 : ℤ) := by rw [show (-149 : ℤ) = -151 + 2 by norm_num, zpow_add₀ (by norm_num)]; norm_num
  have k4 : (2 : ℝ) ^ (-151 : ℤ) = 2 * 2 ^ (-152 : ℤ) := by rw [show (-151 : ℤ) = -152 + 1 by norm_num, zpow_add_one₀ (by norm_num)]; ring
  have k0 : (0 : ℝ) < 2 ^ (-152 : ℤ) := by positivity
  generalize (2 : ℝ) ^ (-1022 - 53 : ℤ) = z at h1 hk
  rw [k2] at h2
  rw [k3]
  norm_num at h1 h2 hk k4 k0 ⊢
  linarith

/-- The time steps between successive stamps. -/
noncomputable def steps : List Stamp → List (Fl fp32)
  | a :: b :: r => dt a b :: steps (b :: r)
  | _ => []

/-- C136: over any number of samples, at any epoch, the time steps add up to the elapsed time within one part in eight million, and none of them overflows or is NaN. -/
theorem C136_elapsed (l : List Stamp) : ∀ a : Stamp, (a :: l).Pairwise (fun x y => x.val ≤ y.val) → (∀ b ∈ l, b.val - a.val ≤ 2 ^ 100) →
    ∃ ds : List ℝ, steps (a :: l) = ds.map Fl.fin ∧
      |ds.sum - (((a :: l).getLast (by simp)).val - a.val)| ≤ 2 ^ (-23 : ℤ) * (((a :: l).getLast (by simp)).val - a.val) + l.length * 2 ^ (-149 : ℤ) := by
  induction l with
  | nil => intro a _ _; exact ⟨[], rfl, by simp⟩
  | cons b r ih =>
    intro a hs hb
    have hab : a.val ≤ b.val := (List.pairwise_cons.1 hs).1 b (by simp)
    have hbr := (List.pairwise_cons.1 hs).2
    obtain ⟨ds, h1, h2⟩ := ih b hbr (fun c hc => by have := hb c (by simp [hc]); linarith)
    have hfin : (dt a b : Fl fp32) = fin (fp32.rnd (fp64.rnd (b.val - a.val))) := by
      rw [dt_eq]
      unfold Fl.round
      rw [if_pos]
      have h3 := step_error (b.val - a.val)
      have h4 := hb b (by simp)
      have h5 : |b.val - a.val| = b.val - a.val := abs_of_nonneg (by linarith)
      rw [h5] at h3
      have h6 : |fp32.rnd (fp64.rnd (b.val - a.val))| ≤ |fp32.rnd (fp64.rnd (b.val - a.val)) - (b.val - a.val)| + |b.val - a.val| := by
        calc |fp32.rnd (fp64.rnd (b.val - a.val))| = |(fp32.rnd (fp64.rnd (b.val - a.val)) - (b.val - a.val)) + (b.val - a.val)| := by ring_nf
          _ ≤ _ := abs_add_le _ _
      rw [h5] at h6
      have hM : fp32.max = (2 - 2 ^ (-23 : ℤ)) * 2 ^ (127 : ℤ) := rfl
      rw [hM]
      have k1 : (2 : ℝ) ^ (-149 : ℤ) ≤ 1 := by
        have := zpow_le_zpow_right₀ (by norm_num : (1 : ℝ) ≤ 2) (by norm_num : (-149 : ℤ) ≤ 0)
        simpa using this
      have k2 : (2 : ℝ) ^ (-23 : ℤ) ≤ 1 := by
        have := zpow_le_zpow_right₀ (by norm_num : (1 : ℝ) ≤ 2) (by norm_num : (-23 : ℤ) ≤ 0)
        simpa using this
      have k3 : (2 : ℝ) ^ (-23 : ℤ) * (b.val - a.val) ≤ b.val - a.val := mul_le_of_le_one_left (by linarith) k2
      have k4 : (2 : ℝ) ^ 100 * 2 + 1 ≤ (2 - 1) * 2 ^ (127 : ℤ) := by norm_num
      have k5 : ((2 : ℝ) - 1) * 2 ^ (127 : ℤ) ≤ (2 - 2 ^ (-23 : ℤ)) * 2 ^ (127 : ℤ) := mul_le_mul_of_nonneg_right (by linarith) (by positivity)
      linarith
    refine ⟨fp32.rnd (fp64.rnd (b.val - a.val)) :: ds, ?_, ?_⟩
    · show dt a b :: steps (b :: r) = _
      rw [h1, hfin]
      rfl
    · rw [List.getLast_cons (by simp)]
      have h3 := step_error (b.val - a.val)
      rw [abs_of_nonneg (by linarith : 0 ≤ b.val - a.val)] at h3
      have e : (fp32.rnd (fp64.rnd (b.val - a.val)) :: ds).sum - (((b :: r).getLast (by simp)).val - a.val) =
          (fp32.rnd (fp64.rnd (b.val - a.val)) - (b.val - a.val)) + (ds.sum - (((b :: r).getLast (by simp)).val - b.val)) := by
        rw [List.sum_cons]; ring
      rw [e]
      refine (abs_add_le _ _).trans ?_
      rw [List.length_cons]
      push_cast
      linarith

/-- C136: from the first second on, two samples at different times are never at the same time for the filter. -/
theorem C136_moves (a b : Stamp) (ha : a.IsDouble) (hb : b.IsDouble) (h0 : 1 ≤ a.val) (h1 : a.val < b.val) (h2 : b.val ≤ 2 * a.val) (hf : b.val - a.val ≤ 2 ^ 100) :
    ∃ d : ℝ, (dt a b : Fl fp32) = fin d ∧ 2 ^ (-52 : ℤ) ≤ d := by
  obtain ⟨e, N, k, hN, hk⟩ := sterbenz (p := 53) (emin := -1022) (by norm_num) hb ha (by linarith) h1.le h2
  have hE : 0 ≤ expo (-1022) a.val := by
    refine le_trans ?_ (le_max_left _ _)
    rw [abs_of_pos (by linarith)]
    have := Int.log_mono_right (b := 2) (by norm_num : (0 : ℝ) < 1) h0
    simpa using this
  have hkk : -52 ≤ k := by omega
  have hp : (0 : ℝ) < 2 ^ k := by positivity
  have hN1 : 1 ≤ N := by
    by_contra hc
    have h3 : (N : ℝ) ≤ 0 := by exact_mod_cast (by omega : N ≤ 0)
    have := mul_nonpos_of_nonpos_of_nonneg h3 hp.le
    rw [← hN] at this
    linarith
  have hge : (2 : ℝ) ^ (-52 : ℤ) ≤ b.val - a.val := by
    rw [hN]
    have h3 : (1 : ℝ) ≤ N := by exact_mod_cast hN1
    calc (2 : ℝ) ^ (-52 : ℤ) ≤ 2 ^ k := zpow_le_zpow_right₀ (by norm_num) hkk
      _ ≤ N * 2 ^ k := le_mul_of_one_le_left hp.le h3
  obtain ⟨ds, h3, -⟩ := C136_elapsed [b] a (by simp [h1.le]) (by simpa using hf)
  obtain ⟨d, hd⟩ : ∃ d, (dt a b : Fl fp32) = fin d := by
    match ds, h3 with
    | [], h3 => cases h3
    | d :: _, h3 => exact ⟨d, (List.cons.inj h3).1⟩
  refine ⟨d, hd, ?_⟩
  rw [C136_rounded_once a b ha hb (by linarith) h1.le h2] at hd
  unfold Fl.round at hd
  split at hd
  · cases hd
    have := fp32.mono hge
    have e2 : fp32.rnd (2 ^ (-52 : ℤ)) = 2 ^ (-52 : ℤ) := by
      have := rndBits_of_mul (p := 24) (emin := -126) (k := -52) (n := 1) (P := 1) (by norm_num) (by norm_num) (by norm_num) (by norm_num)
      simp only [Int.cast_one, one_mul] at this
      exact this
    rwa [e2] at this
  · cases hd

/-- The steps that a queue of the propagator integrates over, the first item being the start. -/
theorem C136_queue (s : PropQueue (Fl fp32) Stamp) (i : PropItem (Fl fp32) Stamp) (r : List (PropItem (Fl fp32) Stamp)) (hi : s.items = i :: r)
    (ho : s.items.Pairwise (fun x y => x.ts.val ≤ y.ts.val)) (hb : ∀ j ∈ r, j.ts.val - i.ts.val ≤ 2 ^ 100) :
    ∃ ds : List ℝ, steps (s.items.map (·.ts)) = ds.map Fl.fin ∧
      |ds.sum - (((i :: r).getLast (by simp)).ts.val - i.ts.val)| ≤ 2 ^ (-23 : ℤ) * (((i :: r).getLast (by simp)).ts.val - i.ts.val) + r.length * 2 ^ (-149 : ℤ) := by
  rw [hi] at ho ⊢
  obtain ⟨ds, h1, h2⟩ := C136_elapsed (r.map (·.ts)) i.ts (by simpa [List.pairwise_map] using List.pairwise_map.2 ho) (by simpa using hb)
  refine ⟨ds, h1, ?_⟩
  have e : (i.ts :: r.map (·.ts)).getLast (by simp) = ((i :: r).getLast (by simp)).ts := by
    rw [← List.getLast_map (f := fun j : PropItem (Fl fp32) Stamp => j.ts) (l := i :: r) (by simp)]
    rfl
  rw [e, List.length_map] at h2
  exact h2

/-- The step with which the propagator moves the state is `dt`, as is that of its matrices. -/
theorem used (s : PropQueue (Fl fp32) Stamp) (g : Vec3 (Fl fp32)) (i : PropItem (Fl fp32) Stamp) (a w : Vec3 (Fl fp32)) (t : Stamp) :
    (s.nominal g i a w t).p = i.st.p + vscale (Vec3.smul (lit (1/2)) (i.st.v + (s.nominal g i a w t).v)) (dt i.ts t) ∧
    s.stepG i t = fillG s.G (dt i.ts t) i.st.q := ⟨rfl, rfl⟩

/-- The order matters: the difference of the converted stamps, instead of the converted difference, is zero for two samples some ten milliseconds apart in this decade. -/
theorem C136_other_order : ∃ a b : Stamp, a.IsDouble ∧ b.IsDouble ∧ 1 ≤ a.val ∧ b.val - a.val = 5 / 512 ∧ (TimeCast.toK b - TimeCast.toK a : Fl fp32) = fin 0 := by
  have d1 : fp64.rnd 1600000000 = 1600000000 := by
    have := rndBits_of_mul (p := 53) (emin := -1022) (k := 0) (n := 1600000000) (P := 40) (by decide) (by norm_num) (by norm_num) (by norm_num)
    norm_num at this
    exact this
  have d2 : fp64.rnd (1600000000 + 5 / 512) = 1600000000 + 5 / 512 := by
    have := rndBits_of_mul (p := 53) (emin := -1022) (k := -9) (n := 1600000000 * 512 + 5) (P := 53) (by decide) (by norm_num) (by norm_num) (by norm_num)
    have e : (((1600000000 * 512 + 5 : ℤ)) : ℝ) * 2 ^ (-9 : ℤ) = 1600000000 + 5 / 512 := by norm_num
    rw [e] at this
    exact this
  have small : (2 : ℝ) ^ (-126 : ℤ) ≤ 1 := by
    have := zpow_le_zpow_right₀ (by norm_num : (1 : ℝ) ≤ 2) (by norm_num : (-126 : ℤ) ≤ 0)
    simpa using this
  have s1 : fp32.rnd 1600000000 = 1600000000 := by
    have h := F32.rnd_eq 1600000000 (.inr (small.trans (by norm_num)))
    rw [show F32.rnd 1600000000 = 1600000000 by decide +kernel] at h
    push_cast at h
    exact h.symm
  have s2 : fp32.rnd (1600000000 + 5 / 512) = 1600000000 := by
    have h := F32.rnd_eq (1600000000 + 5 / 512) (.inr (small.trans (by norm_num)))
    rw [show F32.rnd (1600000000 + 5 / 512) = 1600000000 by decide +kernel] at h
    push_cast at h
    exact h.symm
  have big : |(1600000000 : ℝ)| ≤ fp32.max := by
    have hM : fp32.max = (2 - 2 ^ (-23 : ℤ)) * 2 ^ (127 : ℤ) := rfl
    rw [hM]
    norm_num
  refine ⟨⟨1600000000⟩, ⟨1600000000 + 5 / 512⟩, d1, d2, by norm_num, by ring, ?_⟩
  have e1 : (TimeCast.toK (⟨1600000000⟩ : Stamp) : Fl fp32) = fin 1600000000 := by
    show Fl.round 1600000000 = _
    rw [Fl.round, s1, if_pos big]
  have e2 : (TimeCast.toK (⟨1600000000 + 5 / 512⟩ : Stamp) : Fl fp32) = fin 1600000000 := by
    show Fl.round (1600000000 + 5 / 512) = _
    rw [Fl.round, s2, if_pos big]
  rw [e1, e2]
  show Fl.round (1600000000 + -1600000000) = fin 0
  rw [add_neg_cancel, Fl.round, fp32.zero, abs_zero, if_pos (by linarith [fp32.max_ge])]

/-- A case: 1.6e9 seconds, a time of this decade, and a sample some five milliseconds later. -/
example : Stamp.IsDouble ⟨1600000000⟩ ∧ Stamp.IsDouble ⟨1600000000 + 5 / 1024⟩ := by
  constructor
  · have := rndBits_of_mul (p := 53) (emin := -1022) (k := 0) (n := 1600000000) (P := 40) (by decide) (by norm_num) (by norm_num) (by norm_num)
    show rndBits 53 (-1022) 1600000000 = 1600000000
    norm_num at this
    exact this
  · have := rndBits_of_mul (p := 53) (emin := -1022) (k := -10) (n := 1600000000 * 1024 + 5) (P := 53) (by decide) (by norm_num) (by norm_num) (by norm_num)
    have e : (((1600000000 * 1024 + 5 : ℤ)) : ℝ) * 2 ^ (-10 : ℤ) = 1600000000 + 5 / 1024 := by norm_num
    rw [e] at this
    exact this

/-- Converting the two times to single precision before the subtraction would lose the step at this epoch. -/
example : fp32.rnd (1600000000 + 5 / 1024) = fp32.rnd 1600000000 := by
  have h : F32.rnd (1600000000 + 5 / 1024) = F32.rnd 1600000000 := by decide +kernel
  have h1 := F32.rnd_eq (1600000000 + 5 / 1024) (.inr (by push_cast; rw [abs_of_pos (by norm_num)]; norm_num))
  have h2 := F32.rnd_eq 1600000000 (.inr (by push_cast; rw [abs_of_pos (by norm_num)]; norm_num))
  rw [h, h2] at h1
  push_cast at h1
  exact h1.symm

end Clock
end Vio
