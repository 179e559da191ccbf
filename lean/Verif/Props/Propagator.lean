/-
Properties C31 - C39: the propagation queue.
-/
import Verif.Spec.Propagator
import Verif.Lemmas.Attitude
import Verif.Lemmas.Matrix

set_option linter.unusedSectionVars false

namespace Vio

open PropSpec PropQueue

section Structural
variable {K T : Type} [Add K] [Sub K] [Mul K] [Neg K] [Div K] [Zero K] [One K] [ScalarFn K]
  [TimeOps T] [TimeCast T K]

/-! ### C35: the process matrices are free of history -/

theorem fillF_congr (F F' : DMat K) (d : K) (q : Quat K) (ma mg : Vec3 K) (hr : F.rows = F'.rows) (hc : F.cols = F'.cols)
    (h : ∀ x y, ¬ (x < 3 ∧ 3 ≤ y ∧ y < 6) → ¬ (3 ≤ x ∧ x < 6 ∧ 6 ≤ y ∧ y < 12) → ¬ (6 ≤ x ∧ x < 9 ∧ 6 ≤ y ∧ y < 9) → ¬ (6 ≤ x ∧ x < 9 ∧ 12 ≤ y ∧ y < 15) →
      F.e x y = F'.e x y) : fillF F d q ma mg = fillF F' d q ma mg := by
  unfold fillF DMat.setBlock3
  simp only [hr, hc, DMat.mk.injEq, true_and, indexP, indexV, indexR, indexBA, indexBG]
  funext x y
  refine ite_congr rfl (fun _ => rfl) fun h1 => ite_congr rfl (fun _ => rfl) fun h2 => ite_congr rfl (fun _ => rfl) fun h3 =>
    ite_congr rfl (fun _ => rfl) fun h4 => ite_congr rfl (fun _ => rfl) fun h5 => ?_
  apply h <;> omega

theorem fillG_congr (G G' : DMat K) (d : K) (q : Quat K) (hr : G.rows = G'.rows) (hc : G.cols = G'.cols)
    (h : ∀ x y, ¬ (x < 6 ∧ y < 3) → ¬ (6 ≤ x ∧ x < 9 ∧ 3 ≤ y ∧ y < 6) → ¬ (9 ≤ x ∧ x < 12 ∧ 6 ≤ y ∧ y < 9) → ¬ (12 ≤ x ∧ x < 15 ∧ 9 ≤ y ∧ y < 12) →
      G.e x y = G'.e x y) : fillG G d q = fillG G' d q := by
  unfold fillG DMat.setBlock3
  simp only [hr, hc, DMat.mk.injEq, true_and, indexP, indexV, indexR, indexBA, indexBG, indexNA, indexNG, indexNWA, indexNWG]
  funext x y
  refine ite_congr rfl (fun _ => rfl) fun h1 => ite_congr rfl (fun _ => rfl) fun h2 => ite_congr rfl (fun _ => rfl) fun h3 =>
    ite_congr rfl (fun _ => rfl) fun h4 => ite_congr rfl (fun _ => rfl) fun h5 => ?_
  apply h <;> omega

/-- The buffers hold the identity / zero wherever a step does not write. -/
def Clean (s : PropQueue K T) : Prop :=
  (∀ d q ma mg, fillF s.F d q ma mg = fillF (.ident 15) d q ma mg) ∧ (∀ d q, fillG s.G d q = fillG (.zero 15 12) d q)

theorem fillF_fillF (F : DMat K) (d d' : K) (q q' : Quat K) (ma mg ma' mg' : Vec3 K) :
    fillF (fillF F d q ma mg) d' q' ma' mg' = fillF F d' q' ma' mg' := by
  refine fillF_congr (fillF F d q ma mg) F d' q' ma' mg' rfl rfl ?_
  intro x y h1 h2 h3 h4
  unfold fillF DMat.setBlock3
  simp only [indexP, indexV, indexR, indexBA, indexBG]
  rw [if_neg (by omega), if_neg (by omega), if_neg (by omega), if_neg (by omega), if_neg (by omega)]

theorem fillG_fillG (G : DMat K) (d d' : K) (q q' : Quat K) : fillG (fillG G d q) d' q' = fillG G d' q' := by
  refine fillG_congr (fillG G d q) G d' q' rfl rfl ?_
  intro x y h1 h2 h3 h4
  unfold fillG DMat.setBlock3
  simp only [indexP, indexV, indexR, indexBA, indexBG, indexNA, indexNG, indexNWA, indexNWG]
  rw [if_neg (by omega), if_neg (by omega), if_neg (by omega), if_neg (by omega), if_neg (by omega)]

theorem clean_fill (s s' : PropQueue K T) (h : Clean s) (d : K) (q : Quat K) (ma mg : Vec3 K) (d' : K) (q' : Quat K)
    (hF : s'.F = fillF s.F d q ma mg) (hG : s'.G = fillG s.G d' q') : Clean s' := by
  constructor
  · intro d q ma mg; rw [hF, fillF_fillF]; exact h.1 _ _ _ _
  · intro d q; rw [hG, fillG_fillG]; exact h.2 _ _

theorem clean_repropLoop (g : Vec3 K) (s : PropQueue K T) (i0 : PropItem K T) (rest : List (PropItem K T)) (h : Clean s) : Clean (repropLoop g s i0 rest).1 := by
  induction rest generalizing s i0 with
  | nil => exact h
  | cons i1 rest ih => exact ih _ _ (clean_fill s _ h _ _ _ _ _ _ rfl rfl)

theorem clean_step (nExt : Nat) (s : PropQueue K T) (op : POp K T) (h : Clean s) : Clean (step nExt s op) := by
  have hrep : ∀ (g : Vec3 K) (s : PropQueue K T), Clean s → Clean (s.repropagate g) := by
    intro g s h
    unfold repropagate
    split
    · exact h
    · exact clean_repropLoop g s _ _ h
  cases op with
  | sample g a w t =>
    simp only [step, propagate]
    split
    · exact ⟨fun _ _ _ _ => rfl, fun _ _ => rfl⟩
    · exact clean_fill s _ h _ _ _ _ _ _ rfl rfl
  | reset t thr =>
    simp only [step, resetOrigin]
    split <;> exact h
  | reprop g => exact hrep g s h
  | correct g st c e x ba bg =>
    apply hrep
    unfold correct
    split
    · exact h
    · exact h

theorem clean_run (nExt : Nat) (ops : List (POp K T)) (s : PropQueue K T) (h : Clean s) : Clean (run nExt s ops) := by
  induction ops generalizing s with
  | nil => exact h
  | cons op ops ih => exact ih _ (clean_step nExt s op h)

theorem setBlock3_aligned (A : DMat K) (a b : Nat) (M : Mat3 K) (x y : Nat) :
    (A.setBlock3 (3 * a) (3 * b) M).e x y = if x / 3 = a ∧ y / 3 = b then M.get (x % 3) (y % 3) else A.e x y := by
  unfold DMat.setBlock3
  simp only
  by_cases h : x / 3 = a ∧ y / 3 = b
  · rw [if_pos h, if_pos (by omega), show x - 3 * a = x % 3 by omega, show y - 3 * b = y % 3 by omega]
  · rw [if_neg h, if_neg (by omega)]

theorem get_smul (k : K) (M : Mat3 K) (i j : Nat) : (Mat3.smul k M).get i j = k * M.get i j := by
  unfold Mat3.get Mat3.row Vec3.get
  split_ifs <;> rfl
theorem get_sub (M N : Mat3 K) (i j : Nat) : (M - N).get i j = M.get i j - N.get i j := by
  unfold Mat3.get Mat3.row Vec3.get
  split_ifs <;> rfl
theorem get_neg (M : Mat3 K) (i j : Nat) : (-M).get i j = -M.get i j := by
  unfold Mat3.get Mat3.row Vec3.get
  split_ifs <;> rfl
theorem get_one (i j : Nat) (hi : i < 3) (hj : j < 3) : (Mat3.one : Mat3 K).get i j = delta i j := by
  interval_cases i <;> interval_cases j <;> rfl
theorem delta_div (x y : Nat) (h : x / 3 = y / 3) : (delta (x % 3) (y % 3) : K) = if x = y then 1 else 0 := by
  unfold delta
  by_cases hxy : x = y
  · rw [if_pos hxy, if_pos (by omega)]
  · rw [if_neg hxy, if_neg (by omega)]

theorem fillF_ident (d : K) (q : Quat K) (ma mg : Vec3 K) (x y : Nat) (hx : x < 15) (hy : y < 15) :
    (fillF (.ident 15) d q ma mg).e x y = Fspec d q.toMat ma mg x y := by
  have e : (fillF (.ident 15) d q ma mg) = (((((DMat.ident 15).setBlock3 (3 * 0) (3 * 1) (Mat3.smul d .one)).setBlock3 (3 * 1) (3 * 2)
    ((Mat3.smul (-d) q.toMat).mul (Utility.skew ma))).setBlock3 (3 * 1) (3 * 3) (Mat3.smul (-d) q.toMat)).setBlock3 (3 * 2) (3 * 2)
    (.one - Mat3.smul d (Utility.skew mg))).setBlock3 (3 * 2) (3 * 4) (-(Mat3.smul d .one)) := rfl
  rw [e]
  simp only [setBlock3_aligned, get_smul, get_sub, get_neg, get_one (K := K) _ _ (Nat.mod_lt x (by decide : 3 > 0)) (Nat.mod_lt y (by decide : 3 > 0))]
  simp only [Fspec, DMat.ident]
  have hd := delta_div (K := K) x y
  have ha : x / 3 < 5 := by omega
  have hb : y / 3 < 5 := by omega
  have hne : x / 3 ≠ y / 3 → x ≠ y := by rintro h rfl; exact h rfl
  generalize x / 3 = a at *
  generalize y / 3 = b at *
  interval_cases a <;> interval_cases b <;> simp <;> try (simp at hne hd; first | exact hd.symm | (simp [hne]))

theorem fillG_zero (d : K) (q : Quat K) (x y : Nat) (hx : x < 15) (hy : y < 12) :
    (fillG (.zero 15 12) d q).e x y = Gspec d q.toMat x y := by
  have e : (fillG (.zero 15 12) d q) = (((((DMat.zero 15 12).setBlock3 (3 * 0) (3 * 0) (Mat3.smul (lit (1/2) * d * d) q.toMat)).setBlock3 (3 * 1) (3 * 0)
    (Mat3.smul d q.toMat)).setBlock3 (3 * 2) (3 * 1) (Mat3.smul d .one)).setBlock3 (3 * 3) (3 * 2) (Mat3.smul d .one)).setBlock3 (3 * 4) (3 * 3) (Mat3.smul d .one) := rfl
  rw [e]
  simp only [setBlock3_aligned, get_smul, get_one (K := K) _ _ (Nat.mod_lt x (by decide : 3 > 0)) (Nat.mod_lt y (by decide : 3 > 0))]
  simp only [Gspec, DMat.zero]
  have ha : x / 3 < 5 := by omega
  have hb : y / 3 < 4 := by omega
  generalize x / 3 = a at *
  generalize y / 3 = b at *
  interval_cases a <;> interval_cases b <;> simp

/-- After any history, a step uses exactly the transition matrix of its two samples. -/
theorem C35_F_history_free (nExt : Nat) (st : Motion K) (ops : List (POp K T)) (i0 : PropItem K T) (a w : Vec3 K) (t : T) (x y : Nat) (hx : x < 15) (hy : y < 15) :
    ((run nExt (init st) ops).stepF i0 a w t).e x y =
      Fspec (dt i0.ts t) i0.st.q.toMat (midAccel (run nExt (init st) ops).biasA i0.accel a) (midGyro (run nExt (init st) ops).biasG i0.gyro w) x y := by
  have h := clean_run nExt ops (init st : PropQueue K T) ⟨fun _ _ _ _ => rfl, fun _ _ => rfl⟩
  unfold stepF
  rw [h.1, fillF_ident _ _ _ _ _ _ hx hy]

/-- Likewise for the noise input matrix. -/
theorem C35_G_history_free (nExt : Nat) (st : Motion K) (ops : List (POp K T)) (i0 : PropItem K T) (t : T) (x y : Nat) (hx : x < 15) (hy : y < 12) :
    ((run nExt (init st) ops).stepG i0 t).e x y = Gspec (dt i0.ts t) i0.st.q.toMat x y := by
  have h := clean_run nExt ops (init st : PropQueue K T) ⟨fun _ _ _ _ => rfl, fun _ _ => rfl⟩
  unfold stepG
  rw [h.2, fillG_zero _ _ _ _ hx hy]

/-- The matrices themselves are equal after any two histories with the same biases. -/
theorem C35_same_after_any_two (nExt nExt' : Nat) (st st' : Motion K) (ops ops' : List (POp K T)) (i0 : PropItem K T) (a w : Vec3 K) (t : T)
    (ha : (run nExt (init st) ops).biasA = (run nExt' (init st') ops').biasA) (hg : (run nExt (init st) ops).biasG = (run nExt' (init st') ops').biasG) :
    (run nExt (init st) ops).stepF i0 a w t = (run nExt' (init st') ops').stepF i0 a w t ∧
    (run nExt (init st) ops).stepG i0 t = (run nExt' (init st') ops').stepG i0 t := by
  have h := clean_run nExt ops (init st : PropQueue K T) ⟨fun _ _ _ _ => rfl, fun _ _ => rfl⟩
  have h' := clean_run nExt' ops' (init st' : PropQueue K T) ⟨fun _ _ _ _ => rfl, fun _ _ => rfl⟩
  unfold stepF stepG
  rw [h.1, h'.1, h.2, h'.2, ha, hg]
  exact ⟨rfl, rfl⟩

/-! ### C36: Repropagate -/

theorem repropLoop_frame (g : Vec3 K) (s : PropQueue K T) (i0 : PropItem K T) (rest : List (PropItem K T)) :
    ∃ F G, (repropLoop g s i0 rest).1 = { s with F := F, G := G } := by
  induction rest generalizing s i0 with
  | nil => exact ⟨s.F, s.G, rfl⟩
  | cons i1 rest ih =>
    obtain ⟨F, G, h⟩ := ih { s with F := s.stepF i0 i1.accel i1.gyro i1.ts, G := s.stepG i0 i1.ts } (s.stepItem g i0 i1.accel i1.gyro i1.ts)
    exact ⟨F, G, by rw [repropLoop]; exact h⟩

theorem stepItem_items (s : PropQueue K T) (l : List (PropItem K T)) (g : Vec3 K) (i0 : PropItem K T) (a w : Vec3 K) (t : T) :
    { s with items := l }.stepItem g i0 a w t = s.stepItem g i0 a w t := rfl

theorem reprop_eq_fold (nExt : Nat) (g : Vec3 K) (s : PropQueue K T) (done : List (PropItem K T)) (i0 : PropItem K T) (rest : List (PropItem K T)) :
    { (repropLoop g s i0 rest).1 with items := done ++ i0 :: (repropLoop g s i0 rest).2 } =
      rest.foldl (fun s i => s.propagate nExt g i.accel i.gyro i.ts) { s with items := done ++ [i0] } := by
  induction rest generalizing s done i0 with
  | nil => rfl
  | cons i1 rest ih =>
    rw [List.foldl_cons]
    have e : ({ s with items := done ++ [i0] } : PropQueue K T).propagate nExt g i1.accel i1.gyro i1.ts =
        { s with items := (done ++ [i0]) ++ [s.stepItem g i0 i1.accel i1.gyro i1.ts], F := s.stepF i0 i1.accel i1.gyro i1.ts, G := s.stepG i0 i1.ts } := by
      unfold propagate
      have : (done ++ [i0]).getLast? = some i0 := by simp
      simp only [this]
      rfl
    rw [e, ← ih { s with F := s.stepF i0 i1.accel i1.gyro i1.ts, G := s.stepG i0 i1.ts } (done ++ [i0])]
    simp [repropLoop]

/-- `Repropagate` is the same as starting a queue with the (corrected) first item and feeding it the stored samples live. -/
theorem C36_equals_live (nExt : Nat) (s : PropQueue K T) (g : Vec3 K) (i0 : PropItem K T) (rest : List (PropItem K T)) (h : s.items = i0 :: rest) :
    s.repropagate g = (rest.map (fun i => (i.accel, i.gyro, i.ts))).foldl (fun s x => s.propagate nExt g x.1 x.2.1 x.2.2) { s with items := [i0] } := by
  have := reprop_eq_fold nExt g s [] i0 rest
  simp only [List.nil_append] at this
  rw [List.foldl_map]
  refine Eq.trans ?_ this
  unfold repropagate
  rw [h]

/-- Samples and times are kept, also their number; so is the first item. -/
theorem C36_samples_kept (s : PropQueue K T) (g : Vec3 K) :
    (s.repropagate g).items.map (fun i => (i.accel, i.gyro, i.ts)) = s.items.map (fun i => (i.accel, i.gyro, i.ts)) ∧
    (s.repropagate g).items.head? = s.items.head? ∧ (s.repropagate g).items.length = s.items.length := by
  have key : ∀ (s : PropQueue K T) (i0 : PropItem K T) (rest : List (PropItem K T)),
      (repropLoop g s i0 rest).2.map (fun i => (i.accel, i.gyro, i.ts)) = rest.map (fun i => (i.accel, i.gyro, i.ts)) := by
    intro s i0 rest
    induction rest generalizing s i0 with
    | nil => rfl
    | cons i1 rest ih => simp only [repropLoop, List.map_cons, ih]; rfl
  unfold repropagate
  cases h : s.items with
  | nil => simp [h]
  | cons i0 rest =>
    have := key s i0 rest
    refine ⟨by simp [this], by simp, ?_⟩
    have := congrArg List.length this
    simpa using this

/-- Nothing else in the queue object is touched, except the scratch matrices. -/
theorem C36_frame (s : PropQueue K T) (g : Vec3 K) :
    (s.repropagate g).exCamCov = s.exCamCov ∧ (s.repropagate g).biasA = s.biasA ∧ (s.repropagate g).biasG = s.biasG ∧
    (s.repropagate g).initState = s.initState ∧ (s.repropagate g).Q = s.Q := by
  unfold repropagate
  split
  · simp
  · next i0 rest h =>
    obtain ⟨F, G, h⟩ := repropLoop_frame g s i0 rest
    simp only [h]
    simp

/-- Repropagation only looks at the clean part of the scratch matrices. -/
theorem repropLoop_congr (g : Vec3 K) (s s' : PropQueue K T) (hs : Clean s) (hs' : Clean s') (hb : s.biasA = s'.biasA) (hg : s.biasG = s'.biasG) (hQ : s.Q = s'.Q)
    (i0 : PropItem K T) (rest : List (PropItem K T)) : (repropLoop g s i0 rest).2 = (repropLoop g s' i0 rest).2 := by
  induction rest generalizing s s' i0 with
  | nil => rfl
  | cons i1 rest ih =>
    have e1 : s.stepF i0 i1.accel i1.gyro i1.ts = s'.stepF i0 i1.accel i1.gyro i1.ts := by unfold stepF; rw [hs.1, hs'.1, hb, hg]
    have e2 : s.stepG i0 i1.ts = s'.stepG i0 i1.ts := by unfold stepG; rw [hs.2, hs'.2]
    have e3 : s.stepItem g i0 i1.accel i1.gyro i1.ts = s'.stepItem g i0 i1.accel i1.gyro i1.ts := by
      unfold stepItem; rw [e1, e2, hQ]; unfold nominal; rw [hb, hg]
    simp only [repropLoop]
    rw [e3, ih { s with F := s.stepF i0 i1.accel i1.gyro i1.ts, G := s.stepG i0 i1.ts } { s' with F := s'.stepF i0 i1.accel i1.gyro i1.ts, G := s'.stepG i0 i1.ts }
      (clean_fill s _ hs _ _ _ _ _ _ rfl rfl) (clean_fill s' _ hs' _ _ _ _ _ _ rfl rfl) hb hg hQ]

theorem repropLoop_idem (g : Vec3 K) (s : PropQueue K T) (hs : Clean s) (i0 : PropItem K T) (rest : List (PropItem K T)) :
    (repropLoop g s i0 (repropLoop g s i0 rest).2).2 = (repropLoop g s i0 rest).2 := by
  induction rest generalizing s i0 with
  | nil => rfl
  | cons i1 rest ih =>
    simp only [repropLoop]
    rw [List.cons.injEq]
    exact ⟨rfl, ih { s with F := s.stepF i0 i1.accel i1.gyro i1.ts, G := s.stepG i0 i1.ts } (clean_fill s _ hs _ _ _ _ _ _ rfl rfl) _⟩

/-- Doing it twice is doing it once. -/
theorem C36_idempotent (nExt : Nat) (st : Motion K) (ops : List (POp K T)) (g : Vec3 K) :
    (((run nExt (init st) ops).repropagate g).repropagate g).items = ((run nExt (init st) ops).repropagate g).items := by
  have h := clean_run nExt ops (init st : PropQueue K T) ⟨fun _ _ _ _ => rfl, fun _ _ => rfl⟩
  generalize run nExt (init st : PropQueue K T) ops = s at h
  cases hi : s.items with
  | nil => simp [repropagate, hi]
  | cons i0 rest =>
    have e1 : s.repropagate g = { (repropLoop g s i0 rest).1 with items := i0 :: (repropLoop g s i0 rest).2 } := by simp [repropagate, hi]
    have hc : Clean (s.repropagate g) := clean_step nExt s (.reprop g) h
    have e2 : ((s.repropagate g).repropagate g).items = i0 :: (repropLoop g (s.repropagate g) i0 (repropLoop g s i0 rest).2).2 := by
      rw [repropagate]
      simp only [e1]
    obtain ⟨-, hA, hG, -, hQ⟩ := C36_frame s g
    rw [e2, repropLoop_congr g (s.repropagate g) s hc h hA hG hQ, repropLoop_idem g s h]
    rw [e1]

/-- A queue filled live is left as it is: nothing has changed, so nothing is recomputed differently. -/
theorem C36_fixed_when_unchanged (nExt : Nat) (s : PropQueue K T) (hs : Clean s) (g : Vec3 K) (i0 : PropItem K T) (h : s.items = [i0])
    (samples : List (Vec3 K × Vec3 K × T)) :
    let s' := samples.foldl (fun s x => s.propagate nExt g x.1 x.2.1 x.2.2) s
    (s'.repropagate g).items = s'.items := by
  intro s'
  -- the live queue is a repropagation of placeholder items carrying the samples
  let ph : List (PropItem K T) := samples.map (fun x => { i0 with accel := x.1, gyro := x.2.1, ts := x.2.2 })
  have e : s' = { s with items := i0 :: ph }.repropagate g := by
    rw [C36_equals_live nExt { s with items := i0 :: ph } g i0 ph rfl]
    simp only [ph, List.map_map]
    have : ((fun i : PropItem K T => (i.accel, i.gyro, i.ts)) ∘ fun x : Vec3 K × Vec3 K × T => { i0 with accel := x.1, gyro := x.2.1, ts := x.2.2 }) = id := by
      funext x; rfl
    rw [this, List.map_id]
    have : s = { s with items := [i0] } := by rw [← h]
    show samples.foldl _ s = _
    rw [← this]
  have hs2 : Clean ({ s with items := i0 :: ph } : PropQueue K T) := hs
  have hc : Clean ({ s with items := i0 :: ph }.repropagate g) := clean_step nExt _ (.reprop g) hs2
  have e1 : ({ s with items := i0 :: ph } : PropQueue K T).repropagate g =
    { (repropLoop g { s with items := i0 :: ph } i0 ph).1 with items := i0 :: (repropLoop g { s with items := i0 :: ph } i0 ph).2 } := rfl
  obtain ⟨-, hA, hG, -, hQ⟩ := C36_frame ({ s with items := i0 :: ph } : PropQueue K T) g
  rw [e]
  have e2 : ((({ s with items := i0 :: ph } : PropQueue K T).repropagate g).repropagate g).items =
      i0 :: (repropLoop g (({ s with items := i0 :: ph } : PropQueue K T).repropagate g) i0 (repropLoop g { s with items := i0 :: ph } i0 ph).2).2 := by
    rw [repropagate]
    simp only [e1]
  rw [e2, repropLoop_congr g _ { s with items := i0 :: ph } hc hs2 hA hG hQ, repropLoop_idem g _ hs2]
  rw [e1]

/-! ### C37: ResetOrigin -/

theorem resetLoop_spec (ts thr : T) (l : List (PropItem K T)) :
    ∃ old, l = old ++ resetLoop ts thr l ∧ (∀ i ∈ old, TimeOps.lt thr (TimeOps.sub ts i.ts) = true) ∧
      ∀ i, (resetLoop ts thr l).head? = some i → TimeOps.lt thr (TimeOps.sub ts i.ts) = false := by
  induction l with
  | nil => exact ⟨[], rfl, by simp, by simp [resetLoop]⟩
  | cons i l ih =>
    by_cases h : TimeOps.lt thr (TimeOps.sub ts i.ts) = true
    · obtain ⟨old, h1, h2, h3⟩ := ih
      simp only [resetLoop, h, if_true]
      refine ⟨i :: old, by rw [List.cons_append, ← h1], ?_, h3⟩
      intro x hx
      rcases List.mem_cons.1 hx with rfl | hx
      · exact h
      · exact h2 x hx
    · refine ⟨[], by simp [resetLoop, h], by simp, ?_⟩
      intro x hx
      simp only [resetLoop, h] at hx
      cases hx
      simpa using h

/-- Exactly the leading items older than the threshold go; the result is true exactly when an item remains; the first one left is at most the threshold older. -/
theorem C37_reset (s : PropQueue K T) (ts thr : T) :
    ∃ old, s.items = old ++ (s.resetOrigin ts thr).1.items ∧ (∀ i ∈ old, TimeOps.lt thr (TimeOps.sub ts i.ts) = true) ∧
      (∀ i, (s.resetOrigin ts thr).1.items.head? = some i → TimeOps.lt thr (TimeOps.sub ts i.ts) = false) ∧
      ((s.resetOrigin ts thr).2 = true ↔ (s.resetOrigin ts thr).1.items ≠ []) ∧
      (s.resetOrigin ts thr).1 = { s with items := (s.resetOrigin ts thr).1.items } := by
  unfold resetOrigin
  by_cases h : s.items = []
  · refine ⟨[], by simp [h], by simp, by simp [h], by simp [h], ?_⟩
    have : s.items.isEmpty = true := by simp [h]
    simp only [this, if_true]
  · have h' : s.items.isEmpty = false := by simpa using h
    obtain ⟨old, h1, h2, h3⟩ := resetLoop_spec ts thr s.items
    simp only [h', Bool.false_eq_true, if_false]
    refine ⟨old, h1, h2, h3, ?_, trivial⟩
    simp

/-- With exact, or monotone rounded, times: on a time ordered queue exactly the items not older than the threshold remain. -/
theorem C37_filter [LinearOrder T] [TimeLaws T] (s : PropQueue K T) (ts thr : T) (hs : s.items.Pairwise (fun a b => a.ts ≤ b.ts)) :
    (s.resetOrigin ts thr).1.items = s.items.filter (fun i => !TimeOps.lt thr (TimeOps.sub ts i.ts)) := by
  obtain ⟨old, h1, h2, h3, -, -⟩ := C37_reset s ts thr
  generalize (s.resetOrigin ts thr).1.items = l at *
  rw [h1, List.filter_append]
  have e1 : old.filter (fun i => !TimeOps.lt thr (TimeOps.sub ts i.ts)) = [] := by
    rw [List.filter_eq_nil_iff]
    intro x hx
    simp [h2 x hx]
  rw [e1, List.nil_append, eq_comm, List.filter_eq_self]
  intro x hx
  cases l with
  | nil => cases hx
  | cons i l =>
    have hi := h3 i rfl
    rw [h1] at hs
    have hle : i.ts ≤ x.ts := by
      rcases List.mem_cons.1 hx with rfl | hx
      · exact le_rfl
      · exact List.rel_of_pairwise_cons (List.pairwise_append.1 hs).2.1 hx
    by_contra hc
    have hc' : thr < TimeOps.sub ts x.ts := (TimeLaws.lt_iff _ _).1 (by simpa using hc)
    have := (TimeLaws.lt_iff thr (TimeOps.sub ts i.ts)).2 (hc'.trans_le (TimeLaws.sub_le_sub_right ts i.ts x.ts hle))
    rw [hi] at this
    cases this

/-! ### C38: the first sample -/

theorem C38_first_sample (s : PropQueue K T) (h : s.items = []) (nExt : Nat) (g a w : Vec3 K) (t : T) :
    ∃ it, (s.propagate nExt g a w t).items = [it] ∧ it.st = s.initState ∧ it.accel = a ∧ it.gyro = w ∧ it.ts = t ∧
      it.imuCov.rows = 15 ∧ it.imuCov.cols = 15 ∧ (∀ i j, it.imuCov.e i j = 0) ∧
      it.imuEx.rows = 15 ∧ it.imuEx.cols = 6 * (nExt + 1) ∧ (∀ i j, it.imuEx.e i j = 0) ∧
      (s.propagate nExt g a w t).exCamCov.rows = 6 * (nExt + 1) ∧ (s.propagate nExt g a w t).exCamCov.cols = 6 * (nExt + 1) ∧
      (∀ i j, (s.propagate nExt g a w t).exCamCov.e i j = 0) := by
  refine ⟨⟨s.initState, .zero 15 15, .zero 15 (nExt * 6 + 6), a, w, t⟩, by simp [propagate, h, imuStateSize], rfl, rfl, rfl, rfl, rfl, rfl, fun _ _ => rfl, rfl,
    by simp [DMat.zero]; omega, fun _ _ => rfl, ?_, ?_, ?_⟩
  · simp [propagate, h, DMat.zero]; omega
  · simp [propagate, h, DMat.zero]; omega
  · simp [propagate, h, DMat.zero]

/-- On a non-empty queue the initial state does not matter, exactly one item is added and the pose covariance is kept. -/
theorem C38_init_ignored (s : PropQueue K T) (h : s.items ≠ []) (st : Motion K) (nExt : Nat) (g a w : Vec3 K) (t : T) :
    ({ s with initState := st }.propagate nExt g a w t).items = (s.propagate nExt g a w t).items ∧
    (∃ it, (s.propagate nExt g a w t).items = s.items ++ [it] ∧ it.accel = a ∧ it.gyro = w ∧ it.ts = t) ∧
    (s.propagate nExt g a w t).exCamCov = s.exCamCov := by
  unfold propagate
  cases hl : s.items.getLast? with
  | none => exact absurd (List.getLast?_eq_none_iff.1 hl) h
  | some i0 => exact ⟨rfl, ⟨_, rfl, rfl, rfl, rfl⟩, rfl⟩

/-! ### C39: packing -/

theorem get_seg3 (d : Nat → K) (i j : Nat) (h : j < 3) : (seg3 d i).get j = d (i + j) := by
  interval_cases j <;> rfl

/-- Packing and unpacking an error state gives it back, whatever was in the uninitialised vector. -/
theorem C39_unpack_pack (junk : Nat → K) (x : ErrState K) : vecToErr (errToVec junk x) = x := by
  apply ErrState.ext <;> apply Vec3.ext <;> rfl

/-- Unpacking and packing a 15-vector gives it back: the segments do not overlap and cover the vector. -/
theorem C39_pack_unpack (junk d : Nat → K) (i : Nat) (h : i < 15) : errToVec junk (vecToErr d) i = d i := by
  unfold errToVec setSeg3 vecToErr
  simp only [indexP, indexV, indexR, indexBA, indexBG]
  split_ifs <;> first
    | (rw [get_seg3 _ _ _ (by omega)]; congr 1; omega)
    | omega

end Structural
end Vio
