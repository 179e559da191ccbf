/-
C110: numbers that are not numbers stay for ever, and how they come about: broken samples, free fall, a level start.
-/
import Verif.Props.Ieee

set_option linter.unusedSectionVars false

namespace Vio
open Fl

section floats
variable {m m' : Arith} [FlLib m]

/-- A vector with a component that is not a number. -/
def VecNaN (v : Vec3 (Fl m)) : Prop := v.x = nan ∨ v.y = nan ∨ v.z = nan

theorem nan_div (x : Fl m) : (nan : Fl m) / x = nan := by
  show Fl.div nan x = nan
  cases x <;> rfl

theorem div_nan (x : Fl m) : x / (nan : Fl m) = nan := by
  show Fl.div x nan = nan
  cases x <;> rfl

theorem nan_sub (x : Fl m) : (nan : Fl m) - x = nan := nan_add _
theorem sub_nan (x : Fl m) : x - (nan : Fl m) = nan := add_nan _

/-- A product with a factor that is not a number in any component has no component that is one. -/
theorem mul_lost {q r : Quat (Fl m)} (h : HasNaN m q ∨ HasNaN m r) : HasNaN m (q.mul r) := by
  left
  unfold Quat.mul
  rcases h with h | h <;> rcases h with h | h | h | h <;> simp only [h, nan_mul, mul_nan, nan_sub, sub_nan]

theorem normalized_lost {q : Quat (Fl m)} (h : HasNaN m q) : HasNaN m q.normalized := by
  rw [normalized_nan h]
  exact h

theorem deltaQ_lost {v : Vec3 (Fl m)} (h : VecNaN v) : HasNaN m (Utility.deltaQ v) := by
  unfold Utility.deltaQ
  rcases h with h | h | h
  · exact .inr (.inl (by show v.x / _ = nan; rw [h, nan_div]))
  · exact .inr (.inr (.inl (by show v.y / _ = nan; rw [h, nan_div])))
  · exact .inr (.inr (.inr (by show v.z / _ = nan; rw [h, nan_div])))

theorem lost_rule : QuatRule (HasNaN m) := fun _ _ h => normalized_lost (mul_lost (.inl h))

theorem norm_lost {v : Vec3 (Fl m)} (h : VecNaN v) : v.norm = nan := by
  unfold Vec3.norm Vec3.sqNorm
  rcases h with h | h | h <;> simp only [h, nan_mul, nan_add, add_nan, sqrt_def] <;> rfl

/-- The direction of an acceleration that is zero or not a number is not a number. -/
theorem direction_lost {a : Vec3 (Fl m)} (h : VecNaN a ∨ a = ⟨fin 0, fin 0, fin 0⟩) : a.sdiv a.norm = ⟨nan, nan, nan⟩ := by
  rcases h with h | rfl
  · rw [norm_lost h]
    show (⟨a.x / nan, a.y / nan, a.z / nan⟩ : Vec3 (Fl m)) = _
    simp only [div_nan]
  · have h0 : (fin 0 : Fl m) * fin 0 = fin 0 := by
      show Fl.round (0 * 0) = _
      rw [mul_zero, round_zero']
    have h1 : (fin 0 : Fl m) + fin 0 = fin 0 := by
      show Fl.round (0 + 0) = _
      rw [add_zero, round_zero']
    have h2 : (⟨fin 0, fin 0, fin 0⟩ : Vec3 (Fl m)).norm = fin 0 := by
      unfold Vec3.norm Vec3.sqNorm
      simp only [h0, h1]
      rw [sqrt_fin le_rfl, Real.sqrt_zero, round_zero']
    rw [h2]
    have h3 : (fin 0 : Fl m) / fin 0 = nan := by
      show (if (0 : ℝ) = 0 then (if (0 : ℝ) = 0 then nan else _) else _) = nan
      rw [if_pos rfl, if_pos rfl]
    show (⟨fin 0 / fin 0, fin 0 / fin 0, fin 0 / fin 0⟩ : Vec3 (Fl m)) = _
    rw [h3]

end floats

variable {T : Type} [TimeOps T]

/-- The newest attitude of the attitude filter is not a number. -/
def LostAtt (m : Arith) (s : Att (Fl m) T) : Prop := ∃ i, s.items.getLast? = some i ∧ HasNaN m i.q

section att
variable {m : Arith} [FlLib m] [TimeCast T (Fl m)]

/-- C110: one sample that the filter takes loses the attitude if its gyroscope or accelerometer value is not a number, or if its acceleration is zero, as in free fall. -/
theorem C110_sample (s : Att (Fl m) T) (g a w : Vec3 (Fl m)) (t : T) (i0 : AttItem (Fl m) T) (h0 : s.items.getLast? = some i0) (ht : TimeOps.lt t i0.ts = false)
    (hb : VecNaN w ∨ VecNaN a ∨ a = ⟨fin 0, fin 0, fin 0⟩) : (s.propagate g a w t).2 = true ∧ LostAtt m (s.propagate g a w t).1 := by
  have hq : HasNaN m (s.stepQuat g i0 a (w - s.biasG) t).1 := by
    refine normalized_lost (mul_lost (.inr (deltaQ_lost ?_)))
    rcases hb with hw | ha
    · rcases hw with h | h | h
      · refine .inl ?_
        show (-(lit (1/2) * (i0.gyro.x + (w.x - s.biasG.x)) + _ * s.kp + _)) * _ = nan
        simp only [h, nan_sub, add_nan, mul_nan, nan_add, neg_nan, nan_mul]
      · refine .inr (.inl ?_)
        show (-(lit (1/2) * (i0.gyro.y + (w.y - s.biasG.y)) + _ * s.kp + _)) * _ = nan
        simp only [h, nan_sub, add_nan, mul_nan, nan_add, neg_nan, nan_mul]
      · refine .inr (.inr ?_)
        show (-(lit (1/2) * (i0.gyro.z + (w.z - s.biasG.z)) + _ * s.kp + _)) * _ = nan
        simp only [h, nan_sub, add_nan, mul_nan, nan_add, neg_nan, nan_mul]
    · have he : (Att.gravErr g i0.q a).x = nan := by
        unfold Att.gravErr
        rw [direction_lost ha]
        show nan * _ - nan * _ = nan
        rw [nan_mul, nan_sub]
      refine .inl ?_
      show (-(_ + (Att.gravErr g i0.q a).x * s.kp + (s.errInt.x + (Att.gravErr g i0.q a).x * s.ki))) * _ = nan
      simp only [he, nan_mul, add_nan, neg_nan]
  unfold Att.propagate
  rw [h0]
  dsimp only
  rw [ht]
  simp only [Bool.false_eq_true, if_false, true_and]
  exact ⟨_, List.getLast?_concat .., hq⟩

theorem lost_propagate (s : Att (Fl m) T) (g a w : Vec3 (Fl m)) (t : T) (h : LostAtt m s) : LostAtt m (s.propagate g a w t).1 := by
  obtain ⟨i0, h0, hq⟩ := h
  unfold Att.propagate
  rw [h0]
  dsimp only
  split
  · exact ⟨i0, h0, hq⟩
  · exact ⟨_, List.getLast?_concat .., lost_rule _ _ hq⟩

end att

section run
variable {K : Type} [Add K] [Sub K] [Mul K] [Neg K] [Div K] [Zero K] [One K] [ScalarFn K] [TimeCast T K]

/-- Handling an image changes neither the newest attitude item nor whether there is one. -/
theorem last_onFeat (env : Env K) (g : Vec3 K) (b b' : Backend K T) (m : FeatMsg K T) (h : b.onFeat env g m = .ok b') : b'.att.items.getLast? = b.att.items.getLast? := by
  unfold Backend.onFeat at h
  obtain ⟨b1, h1, h⟩ := Res.bind_eq_ok.1 h
  obtain ⟨b2, h2, h⟩ := Res.bind_eq_ok.1 h
  have e1 : b1.att.items.getLast? = b.att.items.getLast? := by
    unfold Backend.tryInit at h1
    split at h1
    · obtain ⟨⟨good, b3⟩, hi, h1⟩ := Res.bind_eq_ok.1 h1
      obtain ⟨-, -, -, i4, -, -, -⟩ := Backend.initialise_any _ _ _ _ _ hi
      dsimp only at h1
      split at h1
      · cases h1
        exact i4
      · obtain ⟨w, rfl, -⟩ := Backend.shrunk_keep _ _ h1
        exact i4
    · cases h1
      rfl
  have e2 : b2.att.items.getLast? = b1.att.items.getLast? := by
    unfold Backend.tryUpdate at h2
    split at h2
    · cases h2; rfl
    · split at h2
      · obtain ⟨⟨good, u⟩, hu, h2⟩ := Res.bind_eq_ok.1 h2
        dsimp only at h2
        split at h2
        · obtain ⟨w, _, h2⟩ := Res.bind_eq_ok.1 h2
          cases h2
          rfl
        · obtain ⟨w, rfl, -⟩ := Backend.shrunk_keep _ _ h2
          rfl
      · cases h2
  obtain ⟨-, -, -, c4⟩ := Backend.cleanAtt_any _ _ h
  exact c4.trans (e2.trans e1)

/-- A property of the attitude filter that only looks at the newest item and that samples keep holds in every defined history. -/
theorem last_run {R : Att K T → Prop} (hlast : ∀ s s' : Att K T, s'.items.getLast? = s.items.getLast? → R s → R s') (hp : ∀ s g a w t, R s → R (s.propagate g a w t).1)
    (ops : List (BOp K T)) : ∀ (p p' : BProc K T) (outs : List (BOut K T)), p.run ops = .ok (p', outs) → R p.b.att → R p'.b.att := by
  induction ops with
  | nil => intro p p' outs h hr; cases h; exact hr
  | cons op ops ih =>
    intro p p' outs h hr
    rw [BProc.run] at h
    obtain ⟨⟨p1, o⟩, h1, h⟩ := Res.bind_eq_ok.1 h
    obtain ⟨⟨p2, os⟩, h2, h⟩ := Res.bind_eq_ok.1 h
    cases h
    refine ih p1 _ _ h2 ?_
    cases op with
    | imu m => cases h1; exact hr
    | feat m => cases h1; exact hr
    | run env =>
      obtain ⟨⟨r, b⟩, hb, h1⟩ := Res.bind_eq_ok.1 h1
      cases h1
      show R b.att
      unfold Backend.runOnce at hb
      dsimp only at hb
      split at hb
      · obtain ⟨⟨res, b1⟩, hi, hb⟩ := Res.bind_eq_ok.1 hb
        have k1 : R b1.att := by
          unfold Backend.onImu at hi
          split at hi
          · cases hi; exact hr
          · dsimp only at hi
            split at hi
            · cases hi; exact hp _ _ _ _ _ hr
            · split at hi
              · cases hi; exact hp _ _ _ _ _ hr
              · cases hi
        dsimp only at hb
        split at hb
        · cases hb; exact k1
        · obtain ⟨b2, hf, hb⟩ := Res.bind_eq_ok.1 hb
          cases hb
          exact hlast _ _ (last_onFeat _ _ _ _ _ hf) k1
      · cases hb; exact hr
    | runTest => cases h1; exact hr
    | publishPropagate =>
      obtain ⟨s, _, h1⟩ := Res.bind_eq_ok.1 h1
      cases h1; exact hr
    | publishUpdate =>
      obtain ⟨s, _, h1⟩ := Res.bind_eq_ok.1 h1
      cases h1; exact hr
    | reset => cases h1; exact hr

end run

variable {m : Arith} [FlLib m] [TimeCast T (Fl m)]

/-- C110: once the newest attitude is not a number, it is not a number for ever: after every defined history of calls, Reset included. -/
theorem C110_for_ever (ops : List (BOp (Fl m) T)) (p p' : BProc (Fl m) T) (outs : List (BOut (Fl m) T)) (h : p.run ops = .ok (p', outs)) (hl : LostAtt m p.b.att) : LostAtt m p'.b.att :=
  last_run (R := LostAtt m) (fun _ _ e ⟨i, hi, hq⟩ => ⟨i, e.trans hi, hq⟩) (fun s g a w t hs => lost_propagate s g a w t hs) ops p p' outs h hl

/-- C110: if no attitude in the queues is a number, every state handed out later has an attitude that is not a number. -/
theorem C110_published (ops : List (BOp (Fl m) T)) (p p' : BProc (Fl m) T) (outs : List (BOut (Fl m) T)) (h : p.run ops = .ok (p', outs)) (hne : p.b.att.items ≠ [])
    (ha : ∀ i ∈ p.b.att.items, HasNaN m i.q) (hq : ∀ i ∈ p.b.u.q.items, HasNaN m i.st.q) (hs : p.b.status = .needInit) : ∀ o ∈ outs, QuatOut (HasNaN m) o :=
  (quat_run lost_rule ops p p' outs h ⟨fun hc => absurd (List.getLast?_eq_none_iff.1 hc) hne, ha, hq, fun hc => by rw [hs] at hc; cases hc⟩).2

/-- The attitude made from an acceleration along gravity is not a number. -/
theorem level_lost (x y : ℝ) : HasNaN m (Att.initQuat (⟨fin 0, fin 0, fin x⟩ : Vec3 (Fl m)) ⟨fin 0, fin 0, fin y⟩) := by
  have hmul : ∀ a b : ℝ, (fin a : Fl m) * fin b = Fl.round (a * b) := fun _ _ => rfl
  have hz : (fin 0 : Fl m) - fin 0 = fin 0 := by
    show Fl.round (0 + -0) = _
    rw [neg_zero, add_zero, round_zero']
  have hc : (⟨fin 0, fin 0, fin x⟩ : Vec3 (Fl m)).cross ⟨fin 0, fin 0, fin y⟩ = ⟨fin 0, fin 0, fin 0⟩ := by
    unfold Vec3.cross
    simp only [hmul, mul_zero, zero_mul, round_zero', hz]
  unfold Att.initQuat
  dsimp only
  rw [hc, direction_lost (.inr rfl)]
  refine normalized_lost (normalized_lost (deltaQ_lost (.inl ?_)))
  exact nan_mul _

/-- The first sample of a fresh backend that takes it puts exactly one attitude item into the filter and nothing else. -/
theorem first_sample (p p' : BProc (Fl m) T) (msg : ImuMsg (Fl m) T) (env : Env (Fl m)) (o : BOut (Fl m) T) (h1 : p.b.status = .needInit) (h2 : p.b.loader.featMeas = []) (h3 : p.b.loader.imuMeas = [])
    (h4 : p.b.att.items = []) (hpush : (p.b.loader.pushImu p.statics msg).loader.imuMeas ≠ []) (htake : ∀ t, (p.b.att.propagate p.g msg.accel msg.gyro t).2 = true)
    (h : (⟨(p.b.loader.pushImu p.statics msg).statics, p.g, { p.b with loader := (p.b.loader.pushImu p.statics msg).loader }⟩ : BProc (Fl m) T).step (.run env) = .ok (p', o)) :
    (∃ t, p'.b.att.items = [⟨Att.initQuat (msg.accel - p.b.att.biasA) p.g, msg.accel - p.b.att.biasA, msg.gyro - p.b.att.biasG, t⟩]) ∧ p'.b.u = p.b.u ∧ p'.b.status = .needInit ∧ ∃ r, o = .ret r := by
  have hf : (p.b.loader.pushImu p.statics msg).loader.featMeas = [] := h2
  obtain ⟨t, hm⟩ : ∃ t, (p.b.loader.pushImu p.statics msg).loader.imuMeas = [⟨msg.gyro, msg.accel, t⟩] := by
    unfold Loader.pushImu at hpush ⊢
    dsimp only at hpush ⊢
    generalize (if TimeOps.isNaN p.b.loader.offset then msg.ts else p.b.loader.offset) = off at *
    split at hpush
    · rename_i hc
      rw [if_pos hc, h3]
      exact ⟨_, rfl⟩
    · exact absurd h3 hpush
  generalize p.b.loader.pushImu p.statics msg = r at *
  have e : p' = ⟨r.statics, p.g, { p.b with loader := { r.loader with imuMeas := [] }, att := (p.b.att.propagate p.g msg.accel msg.gyro t).1 }⟩ ∧
      o = .ret (p.b.att.propagate p.g msg.accel msg.gyro t).2 := by
    simp only [BProc.step, Backend.runOnce, Loader.popOne, hf, hm, Backend.onImu, h1, if_true, Res.bind_ok] at h
    cases h
    exact ⟨by dsimp only; rw [h1, hf], rfl⟩
  obtain ⟨rfl, rfl⟩ := e
  refine ⟨⟨t, ?_⟩, rfl, h1, _, rfl⟩
  have ht := htake t
  dsimp only
  unfold Att.propagate at ht ⊢
  rw [h4] at ht ⊢
  dsimp only [List.getLast?_nil] at ht ⊢
  split at ht
  · cases ht
  · rename_i hc
    rw [if_neg hc]

/-- C110: the level start.  Gravity is along the z axis, and the first sample, taken by the attitude filter, measures an acceleration exactly along it, as a level device at rest does.
Then no attitude handed out in the whole run is a number, whatever samples and images follow. -/
theorem C110_level_start (c : Config (Fl m)) (st : Motion (Fl m)) (g : Vec3 (Fl m)) (b : Backend (Fl m) T) (hc : Backend.applyConfig c (.init st) = .ok (b, g)) (y : ℝ) (hy : c.gravity = fin y)
    (w : Vec3 (Fl m)) (x : ℝ) (hx : m.rnd x = x) (hx' : |x| ≤ m.max) (t : T) (env : Env (Fl m)) (ops : List (BOp (Fl m) T)) (p : BProc (Fl m) T) (outs : List (BOut (Fl m) T))
    (hpush : (b.loader.pushImu {} ⟨w, ⟨fin 0, fin 0, fin x⟩, t⟩).loader.imuMeas ≠ [])
    (htake : ∀ t', (b.att.propagate g ⟨fin 0, fin 0, fin x⟩ w t').2 = true)
    (h : (⟨{}, g, b⟩ : BProc (Fl m) T).run (.imu ⟨w, ⟨fin 0, fin 0, fin x⟩, t⟩ :: .run env :: ops) = .ok (p, outs)) :
    (∀ o ∈ outs, QuatOut (HasNaN m) o) ∧ LostAtt m p.b.att := by
  have hb : b.status = .needInit ∧ b.loader.featMeas = [] ∧ b.loader.imuMeas = [] ∧ b.att.items = [] ∧ b.att.biasA = 0 ∧ b.u.q.items = [] ∧ g = ⟨lit 0, lit 0, c.gravity⟩ := by
    obtain ⟨ex, -, e⟩ := Res.bind_eq_ok.1 hc
    cases e
    exact ⟨rfl, rfl, rfl, rfl, rfl, rfl, rfl⟩
  obtain ⟨b1, b2, b3, b4, b5, b6, b7⟩ := hb
  rw [BProc.run] at h
  obtain ⟨⟨p1, o1⟩, h1, h⟩ := Res.bind_eq_ok.1 h
  obtain ⟨⟨p2, os⟩, h2, h⟩ := Res.bind_eq_ok.1 h
  cases h
  cases h1
  rw [BProc.run] at h2
  obtain ⟨⟨p3, o3⟩, h3, h2⟩ := Res.bind_eq_ok.1 h2
  obtain ⟨⟨p4, os'⟩, h4, h2⟩ := Res.bind_eq_ok.1 h2
  cases h2
  obtain ⟨⟨t', k1⟩, k2, k3, r, rfl⟩ := first_sample ⟨{}, g, b⟩ p3 _ env o3 b1 b2 b3 b4 hpush htake h3
  dsimp only at k1 k2
  have hsub : (⟨fin 0, fin 0, fin x⟩ : Vec3 (Fl m)) - 0 = ⟨fin 0, fin 0, fin x⟩ := by
    have e1 : ∀ z : ℝ, (fin z : Fl m) - 0 = Fl.round z := fun z => by
      show Fl.round (z + -0) = _
      rw [neg_zero, add_zero]
    show (⟨fin 0 - 0, fin 0 - 0, fin x - 0⟩ : Vec3 (Fl m)) = _
    rw [e1, e1, round_zero']
    unfold Fl.round
    rw [hx, if_pos hx']
  have hg : g = ⟨fin 0, fin 0, fin y⟩ := by
    have : (lit 0 : Fl m) = fin 0 := by
      show Fl.round ((0 : ℚ) : ℝ) = _
      rw [Rat.cast_zero, round_zero']
    rw [b7, this, hy]
  rw [b5, hsub, hg] at k1
  have k : ∀ i ∈ p3.b.att.items, HasNaN m i.q := by
    rw [k1]
    intro i hi
    rw [List.mem_singleton.1 hi]
    exact level_lost x y
  refine ⟨?_, C110_for_ever ops p3 _ _ h4 ⟨_, by rw [k1]; rfl, level_lost x y⟩⟩
  intro o ho
  rcases List.mem_cons.1 ho with rfl | ho
  · trivial
  · rcases List.mem_cons.1 ho with rfl | ho
    · trivial
    · exact C110_published ops p3 _ _ h4 (by rw [k1]; simp) k (by rw [k2, b6]; intro i hi; cases hi) k3 o ho

section first
variable {m' : Arith}

/-- The length test of the attitude filter accepts two equal vectors, and every vector with a component that is not a number. -/
theorem length_accepts {m : Arith} [FlLib m] (g a : Vec3 (Fl m)) (h : VecNaN a ∨ g = a) : TimeOps.lt (TimeOps.tlit (4/100) : Fl m') (TimeCast.ofK (ScalarFn.fabs (g.norm - a.norm))) = false := by
  have hnan : TimeOps.lt (TimeOps.tlit (4/100) : Fl m') (TimeCast.ofK (ScalarFn.fabs (nan : Fl m))) = false := by
    show Fl.lt (TimeOps.tlit (4/100) : Fl m') nan = false
    cases (TimeOps.tlit (4/100) : Fl m') <;> rfl
  rcases h with h | rfl
  · rw [norm_lost h, sub_nan]
    exact hnan
  · cases hg : g.norm with
    | fin z =>
      have e : (fin z : Fl m) - fin z = fin 0 := by
        show Fl.round (z + -z) = _
        rw [add_neg_cancel, round_zero']
      rw [e]
      show Fl.lt (Fl.round ((4/100 : ℚ) : ℝ)) (Fl.conv (Fl.fabs (fin 0 : Fl m)) : Fl m') = false
      have e2 : (Fl.conv (Fl.fabs (fin 0 : Fl m)) : Fl m') = fin 0 := by
        show Fl.round |0| = _
        rw [abs_zero, round_zero']
      rw [e2]
      have h4 := m'.nonneg ((4/100 : ℚ) : ℝ) (by norm_num)
      unfold Fl.round
      split
      · simp only [Fl.lt, decide_eq_false_iff_not, not_lt]
        exact h4
      · have : ¬ ((4/100 : ℚ) : ℝ) < 0 := by norm_num
        rw [decide_eq_false this]
        rfl
    | inf s =>
      have e : (inf s : Fl m) - inf s = nan := by
        show Fl.add (inf s) (Fl.neg (inf s)) = nan
        cases s <;> rfl
      rw [e]
      exact hnan
    | nan =>
      rw [sub_nan]
      exact hnan

/-- C110: the check of the first sample lets an acceleration through that is not a number, and the attitude made from it is not a number. -/
theorem C110_first {m : Arith} [FlLib m] (s : Att (Fl m) (Fl m')) (g a w : Vec3 (Fl m)) (t : Fl m') (h0 : s.items = []) (ha : VecNaN a) :
    (s.propagate g a w t).2 = true ∧ LostAtt m (s.propagate g a w t).1 := by
  have hs : VecNaN (a - s.biasA) := by
    rcases ha with h | h | h
    · exact .inl (by show a.x - _ = nan; rw [h, nan_sub])
    · exact .inr (.inl (by show a.y - _ = nan; rw [h, nan_sub]))
    · exact .inr (.inr (by show a.z - _ = nan; rw [h, nan_sub]))
  have hc : VecNaN ((a - s.biasA).cross g) := by
    rcases hs with h | h | h
    · exact .inr (.inl (by show _ - (a - s.biasA).x * _ = nan; rw [h, nan_mul, sub_nan]))
    · exact .inl (by show (a - s.biasA).y * _ - _ = nan; rw [h, nan_mul, nan_sub])
    · exact .inl (by show _ - (a - s.biasA).z * _ = nan; rw [h, nan_mul, sub_nan])
  unfold Att.propagate
  rw [h0]
  dsimp only [List.getLast?_nil]
  rw [length_accepts g _ (.inl hs)]
  refine ⟨rfl, _, rfl, ?_⟩
  show HasNaN m (Att.initQuat (a - s.biasA) g)
  unfold Att.initQuat
  dsimp only
  rw [direction_lost (.inl hc)]
  exact normalized_lost (normalized_lost (deltaQ_lost (.inl (nan_mul _))))

/-- The hypotheses of `C110_level_start` are met in single precision with double precision times: the default configuration, a sample at time zero with the configured gravity along z; afterwards any IMU
samples. -/
example [FlLib fp32] (st : Motion (Fl fp32)) (w : Vec3 (Fl fp32)) (env : Env (Fl fp32)) (ms : List (ImuMsg (Fl fp32) (Fl fp64) × Env (Fl fp32))) :
    ∃ (c : Config (Fl fp32)) (g : Vec3 (Fl fp32)) (b : Backend (Fl fp32) (Fl fp64)) (x : ℝ) (p : BProc (Fl fp32) (Fl fp64)) (outs : List (BOut (Fl fp32) (Fl fp64))),
      c = .default ∧ Backend.applyConfig c (.init st) = .ok (b, g) ∧ c.gravity = fin x ∧
      (⟨{}, g, b⟩ : BProc (Fl fp32) (Fl fp64)).run (.imu ⟨w, ⟨fin 0, fin 0, fin x⟩, fin 0⟩ :: .run env :: ms.flatMap (fun x => [.imu x.1, .run x.2])) = .ok (p, outs) ∧ LostAtt fp32 p.b.att := by
  obtain ⟨bg, hc⟩ : ∃ bg, Backend.applyConfig (T := Fl fp64) (.default : Config (Fl fp32)) (.init st) = .ok bg := ⟨_, rfl⟩
  obtain ⟨b, g⟩ := bg
  have hb : b.status = .needInit ∧ b.loader.featMeas = [] ∧ b.loader.imuMeas = [] ∧ b.att.items = [] ∧ b.att.biasA = 0 ∧ b.loader.offset = TimeOps.tlit (-1) ∧
      g = ⟨lit 0, lit 0, (Config.default : Config (Fl fp32)).gravity⟩ := by
    obtain ⟨ex, -, e⟩ := Res.bind_eq_ok.1 hc
    cases e
    exact ⟨rfl, rfl, rfl, rfl, rfl, rfl, rfl⟩
  obtain ⟨b1, b2, b3, b4, b5, b6, b7⟩ := hb
  have hmax : |fp32.rnd ((98/10 : ℚ) : ℝ)| ≤ fp32.max := by
    have e := fp32.err ((98/10 : ℚ) : ℝ)
    have h2 := fp32.u_le
    have h3 := fp32.eta_le
    have h6 : ((98 / 10 : ℚ) : ℝ) = 98 / 10 := by norm_num
    rw [h6, abs_of_pos (by norm_num : (0 : ℝ) < 98 / 10)] at e
    rw [h6]
    have h7 : (1000 : ℝ) ≤ fp32.max := by
      show _ ≤ (2 - 2 ^ (-23 : ℤ)) * (2 : ℝ) ^ (127 : ℤ)
      norm_num
    rw [abs_le] at e ⊢
    constructor <;> linarith [e.1, e.2]
  have hg : (Config.default : Config (Fl fp32)).gravity = fin (fp32.rnd ((98/10 : ℚ) : ℝ)) := by
    show Fl.round ((98/10 : ℚ) : ℝ) = _
    unfold Fl.round
    rw [if_pos hmax]
  obtain ⟨p, outs, hrun⟩ := imu_run_defined ((⟨w, ⟨fin 0, fin 0, fin (fp32.rnd ((98/10 : ℚ) : ℝ))⟩, fin 0⟩, env) :: ms) (⟨{}, g, b⟩ : BProc (Fl fp32) (Fl fp64)) b1 b2
  refine ⟨.default, g, b, _, p, outs, rfl, hc, hg, hrun, ?_⟩
  refine (C110_level_start .default st g b hc _ hg w _ (fp32_idem _) hmax (fin 0) env _ p outs ?_ ?_ hrun).2
  · have r1 : ∀ n : ℤ, |n| ≤ 1 → (Fl.round (n : ℝ) : Fl fp64) = fin n := by
      intro n hn
      have e : fp64.rnd (n : ℝ) = n := by
        have := rndBits_of_mul (p := 53) (emin := -1022) (k := 0) (n := n) (P := 1) (by simpa using lt_of_le_of_lt hn one_lt_two) (by norm_num) (by norm_num) (by norm_num)
        show rndBits 53 (-1022) (n : ℝ) = n
        simpa using this
      unfold Fl.round
      rw [e, if_pos]
      have h1 : |(n : ℝ)| ≤ 1 := by exact_mod_cast hn
      linarith [fp64.max_ge]
    have e1 : (TimeOps.tlit (-1) : Fl fp64) = fin (-1) := by
      show Fl.round ((-1 : ℚ) : ℝ) = _
      simpa using r1 (-1) (by norm_num)
    have e2 : (TimeOps.tlit 1 : Fl fp64) = fin 1 := by
      show Fl.round ((1 : ℚ) : ℝ) = _
      simpa using r1 1 (by norm_num)
    have e3 : (TimeOps.sub (fin 0) (fin (-1)) : Fl fp64) = fin 1 := by
      show Fl.round (0 + - -1) = _
      simpa using r1 1 (by norm_num)
    have e4 : (TimeOps.sub (fin 1) (fin 1) : Fl fp64) = fin 0 := by
      show Fl.round (1 + - 1) = _
      rw [add_neg_cancel, round_zero']
    unfold Loader.pushImu
    dsimp only
    rw [b6, e1]
    have e5 : TimeOps.isNaN (fin (-1) : Fl fp64) = false := rfl
    rw [e5]
    simp only [Bool.false_eq_true, if_false]
    rw [e3, e2]
    simp only [Option.getD_none]
    rw [e4, if_pos (by simp [TimeOps.lt, Fl.lt])]
    simp
  · intro t'
    unfold Att.propagate
    rw [b4]
    dsimp only [List.getLast?_nil]
    rw [b5, length_accepts]
    · rfl
    · refine .inr ?_
      have e1 : ∀ z : ℝ, (fin z : Fl fp32) - 0 = Fl.round z := fun z => by
        show Fl.round (z + -0) = _
        rw [neg_zero, add_zero]
      rw [b7, hg]
      show _ = (⟨fin 0 - 0, fin 0 - 0, fin _ - 0⟩ : Vec3 (Fl fp32))
      rw [e1, e1, round_zero']
      have e2 : (lit 0 : Fl fp32) = fin 0 := by
        show Fl.round ((0 : ℚ) : ℝ) = _
        rw [Rat.cast_zero, round_zero']
      unfold Fl.round
      rw [e2, fp32_idem, if_pos hmax]

end first

/-- The hypotheses of `C110_sample` are met by free fall after a level, hence lost, start, and by any other start. -/
example {m : Arith} [FlLib m] (s : Att (Fl m) (Fl fp64)) (g w : Vec3 (Fl m)) (i0 : AttItem (Fl m) (Fl fp64)) (h0 : s.items.getLast? = some i0) :
    LostAtt m (s.propagate g ⟨fin 0, fin 0, fin 0⟩ w i0.ts).1 :=
  (C110_sample s g _ w i0.ts i0 h0 (by show Fl.lt i0.ts i0.ts = false; cases i0.ts <;> simp [Fl.lt]) (.inr (.inr rfl))).2

end Vio
