/-
Concrete cases for the demo program (C96 - C100): the shipped configuration as text, runs over the rationals, and inputs with undefined behaviour.
-/
import Verif.Props.Demo

namespace Vio
open ConfSpec DemoSpec

namespace Demo

/-! ### A scanner for decimal numbers -/

/-- Sign, digits, and digits behind a point. -/
def decGet (cs : List Char) : ℚ × Bool × List Char :=
  let neg := cs.head? = some '-'
  let cs := if neg then cs.tail else cs
  let d := cs.takeWhile Char.isDigit
  let cs := cs.dropWhile Char.isDigit
  let dot := cs.head? = some '.'
  let cs := if dot then cs.tail else cs
  let e := if dot then cs.takeWhile Char.isDigit else []
  let cs := cs.drop e.length
  let v : ℚ := (d ++ e).foldl (fun n c => 10 * n + (c.toNat - '0'.toNat : Nat)) 0 / 10 ^ e.length
  (if neg then -v else v, !(d ++ e).isEmpty, cs)

/-- The next `n` numbers of a text. -/
def scan {α : Type} (get : List Char → α × Bool × List Char) : Nat → List Char → Option (List α)
  | 0, _ => some []
  | n + 1, text =>
    if (text.dropWhile isSpace).isEmpty then none
    else if (get (text.dropWhile isSpace)).2.1 then (scan get n (get (text.dropWhile isSpace)).2.2).map ((get (text.dropWhile isSpace)).1 :: ·)
    else none

theorem scan_nums {α : Type} (get : List Char → α × Bool × List Char) (n : Nat) : ∀ (text : List Char) (vs : List α), scan get n text = some vs → Nums get text vs := by
  induction n with
  | zero => intro text vs h; cases h; exact .nil _
  | succ n ih =>
    intro text vs h
    rw [scan] at h
    split at h
    · cases h
    · next h1 =>
      split at h
      · next h2 =>
        obtain ⟨ws, hw, rfl⟩ := Option.map_eq_some_iff.1 h
        exact .cons _ _ _ _ (by simpa using h1) (Prod.ext rfl (Prod.ext h2 rfl)) (ih _ _ hw)
      · cases h

theorem timed_scan (lib : DemoLib ℚ ℚ) (line : List Char) (n : Nat) (r : ℚ × List ℚ) (h1 : line.dropWhile isSpace ≠ [])
    (h2 : (lib.timeGet (line.dropWhile isSpace)).1 = r.1 ∧ (lib.timeGet (line.dropWhile isSpace)).2.1 = true)
    (h3 : scan lib.conf.numGet n (lib.timeGet (line.dropWhile isSpace)).2.2 = some r.2) : Timed lib line r :=
  ⟨h1, _, Prod.ext h2.1 (Prod.ext h2.2 rfl), scan_nums _ _ _ _ h3⟩

/-! ### The shipped configuration -/

/-- The same scanner for real numbers. -/
noncomputable def realGet (cs : List Char) : ℝ × Bool × List Char := ((decGet cs).1, (decGet cs).2)

theorem nums_real (text : List Char) (vs : List ℚ) (h : Nums decGet text vs) : Nums realGet text (vs.map (fun q : ℚ => (q : ℝ))) := by
  induction h with
  | nil text => exact .nil text
  | cons text rest v vs hne hget _ ih => exact .cons text rest _ _ hne (by unfold realGet; rw [hget]) ih

/-- The file holds this table. -/
def checkTable (file : List Char) (c : Nat) (rows : List (List ℚ)) : Bool :=
  decide ((getLines file).length = rows.length) && (getLines file).all (fun l => !l.isEmpty) && decide ((getLines file).map (scan decGet c) = rows.map some) && rows.all (fun r => r.length = c)

theorem table_check (file : List Char) (r c : Nat) (rows : List (List ℚ)) (hr : rows.length = r) (h : checkTable file c rows = true) :
    Table realGet file r c (table (rows.map (·.map (fun q : ℚ => (q : ℝ))))) := by
  simp only [checkTable, Bool.and_eq_true, decide_eq_true_eq, List.all_eq_true] at h
  obtain ⟨⟨⟨h1, h2⟩, h3⟩, h4⟩ := h
  refine ⟨getLines file, [], by simp, h1.trans hr, .inl rfl, ?_⟩
  intro i l hl
  refine ⟨by simpa using h2 l (List.mem_of_getElem? hl), ?_⟩
  have e : ((getLines file).map (scan decGet c))[i]? = some (scan decGet c l) := by rw [List.getElem?_map, hl]; rfl
  rw [h3, List.getElem?_map] at e
  obtain ⟨row, hrow, e⟩ := Option.map_eq_some_iff.1 e
  have hc := h4 row (List.mem_of_getElem? hrow)
  have := nums_real l row (scan_nums _ _ _ _ e.symm)
  have hrw : row.map (fun q : ℚ => (q : ℝ)) = (List.range c).map (table (rows.map (·.map (fun q : ℚ => (q : ℝ)))) i) := by
    apply List.ext_getElem?
    intro j
    rw [List.getElem?_map, List.getElem?_map]
    by_cases hj : j < c
    · have hj' : j < row.length := by omega
      rw [List.getElem?_range hj, List.getElem?_eq_getElem hj']
      simp only [Option.map_some, table, List.getElem?_map, hrow, Option.bind_some, List.getElem?_eq_getElem hj', Option.getD_some]
    · rw [List.getElem?_eq_none (by omega), List.getElem?_eq_none (by simp; omega)]
      rfl
  rw [← hrw]
  exact this

/-- The files of /repo/eskf_vio_backend/config below the directory `c`. -/
def shippedFs : String → Option (List Char) := fun n =>
  if n = "c/T_bc0.txt" then some "0   0  -1   0.05\n-1  0   0   0.04\n0   1   0   0.03\n0   0   0   1".toList
  else if n = "c/T_bc1.txt" then some "0   0  -1   0.05\n-1  0   0   -0.14\n0   1   0   0.03\n0   0   0   1".toList
  else if n = "c/gravity_norm.txt" then some "9.81".toList
  else if n = "c/imu_bias_a_g_init.txt" then some "0.00  0.00  0.00\n0.00  0.00  0.00".toList
  else if n = "c/imu_frequence.txt" then some "200".toList
  else if n = "c/imu_na_ng_nwa_nwg.txt" then some "0.019  0.015  0.0001 0.00001".toList
  else if n = "c/keyframe_policy.txt" then some "30  0.2  0.05".toList
  else if n = "c/vision_measure_noise.txt" then some "0.0021739".toList
  else if n = "c/window_size.txt" then some "6".toList
  else none

/-- A library over the reals. -/
noncomputable def realLib : ConfLib ℝ := ⟨realGet, fun _ _ => 77, fun x => if 0 ≤ x ∧ x < two32 then some ⌊x⌋₊ else none⟩

/-- C100: the shipped texts are such files. -/
theorem C100_texts : Shipped realLib shippedFs "c" := by
  have key : ∀ (name : String) (file : List Char) (r c : Nat) (rows : List (List ℚ)) (t : Nat → Nat → ℝ), shippedFs name = some file → rows.length = r → checkTable file c rows = true →
      t = table (rows.map (·.map (fun q : ℚ => (q : ℝ)))) → Entry realLib.numGet shippedFs name r c (some t) := by
    rintro name file r c rows t h1 h2 h3 rfl
    exact ⟨file, h1, table_check file r c rows h2 h3⟩
  constructor
  · exact key _ _ 1 1 [[200]] _ rfl rfl (by decide +kernel) (by simp)
  · exact key _ _ 1 4 [[19/1000, 15/1000, 1/10000, 1/100000]] _ rfl rfl (by decide +kernel) (by simp)
  · exact key _ _ 2 3 [[0, 0, 0], [0, 0, 0]] _ rfl rfl (by decide +kernel) (by simp)
  · exact key _ _ 1 1 [[981/100]] _ rfl rfl (by decide +kernel) (by simp)
  · exact key _ _ 1 1 [[6]] _ rfl rfl (by decide +kernel) (by simp)
  · exact key _ _ 1 1 [[21739/10000000]] _ rfl rfl (by decide +kernel) (by simp)
  · exact key _ _ 1 3 [[30, 2/10, 5/100]] _ rfl rfl (by decide +kernel) (by simp)
  · exact key _ _ 4 4 [[0, 0, -1, 5/100], [-1, 0, 0, 4/100], [0, 1, 0, 3/100], [0, 0, 0, 1]] _ rfl rfl (by decide +kernel) (by simp)
  · exact key _ _ 4 4 [[0, 0, -1, 5/100], [-1, 0, 0, -14/100], [0, 1, 0, 3/100], [0, 0, 0, 1]] _ rfl rfl (by decide +kernel) (by simp)
  · decide +kernel
  · show (if (0 : ℝ) ≤ 6 ∧ (6 : ℝ) < two32 then some ⌊(6 : ℝ)⌋₊ else none) = _
    rw [if_pos (by constructor <;> norm_num [two32])]
    simp
  · show (if (0 : ℝ) ≤ 30 ∧ (30 : ℝ) < two32 then some ⌊(30 : ℝ)⌋₊ else none) = _
    rw [if_pos (by constructor <;> norm_num [two32])]
    simp

/-! ### Runs -/

/-- A library over the rationals. -/
def exLib : DemoLib ℚ ℚ := ⟨⟨decGet, fun _ _ => 77, fun x => if 0 ≤ x ∧ x.floor < two32 then some x.floor.toNat else none⟩, decGet⟩

/-- Ten points, three images, and the given IMU file. -/
def exFs (imu : String) : String → Option (List Char) := fun n =>
  if n = "imu_pose_noise.txt" then some imu.toList
  else if n = "all_points.txt" then some "0 0 4 1\n0 0 4 1\n0 0 4 1\n0 0 4 1\n0 0 4 1\n0 0 4 1\n0 0 4 1\n0 0 4 1\n0 0 4 1\n0 0 4 1\n".toList
  else if n = "cam_pose.txt" then some "0 1 0 0 0 0 0 0\n1 1 0 0 0 0 0 0\n".toList
  else none

/-- Three samples at rest. -/
def exImus : String := "0 1 0 0 0 0 0 0 0 0 0 0 0 10\n1 1 0 0 0 0 0 0 0 0 0 0 0 10\n2 1 0 0 0 0 0 0 0 0 0 0 0 10\n"

theorem ex_files : Files exLib (exFs exImus) "" [(0, 0, ⟨0, 0, 10⟩), (1, 0, ⟨0, 0, 10⟩), (2, 0, ⟨0, 0, 10⟩)] (List.replicate 10 ⟨0, 0, 4⟩) [(0, .one, 0), (1, .one, 0)] := by
  have himu : ∀ (l : List Char) (t : ℚ), l ≠ [] → l.dropWhile isSpace ≠ [] → (decGet (l.dropWhile isSpace)).1 = t ∧ (decGet (l.dropWhile isSpace)).2.1 = true →
      scan decGet 13 (decGet (l.dropWhile isSpace)).2.2 = some [1, 0, 0, 0, 0, 0, 0, 0, 0, 0, 0, 0, 10] →
      l ≠ [] ∧ ∃ r, Timed exLib l r ∧ IsImuRow r (t, (0 : Vec3 ℚ), (⟨0, 0, 10⟩ : Vec3 ℚ)) :=
    fun l t h0 h1 h2 h3 => ⟨h0, (t, [1, 0, 0, 0, 0, 0, 0, 0, 0, 0, 0, 0, 10]), timed_scan exLib l 13 _ h1 h2 h3, rfl, 1, 0, 0, 0, 0, 0, 0, rfl⟩
  have hcam : ∀ (l : List Char) (t : ℚ), l ≠ [] → l.dropWhile isSpace ≠ [] → (decGet (l.dropWhile isSpace)).1 = t ∧ (decGet (l.dropWhile isSpace)).2.1 = true →
      scan decGet 7 (decGet (l.dropWhile isSpace)).2.2 = some [1, 0, 0, 0, 0, 0, 0] → l ≠ [] ∧ ∃ r, Timed exLib l r ∧ IsCamRow r (t, (.one : Quat ℚ), (0 : Vec3 ℚ)) :=
    fun l t h0 h1 h2 h3 => ⟨h0, (t, [1, 0, 0, 0, 0, 0, 0]), timed_scan exLib l 7 _ h1 h2 h3, rfl, rfl⟩
  refine ⟨⟨_, rfl, _, [], (List.append_nil _).symm, .inl rfl, ?_⟩, ⟨_, rfl, _, [], (List.append_nil _).symm, .inl rfl, ?_⟩, ⟨_, rfl, _, [], (List.append_nil _).symm, .inl rfl, ?_⟩⟩
  · rw [show getLines exImus.toList = ["0 1 0 0 0 0 0 0 0 0 0 0 0 10".toList, "1 1 0 0 0 0 0 0 0 0 0 0 0 10".toList, "2 1 0 0 0 0 0 0 0 0 0 0 0 10".toList] by decide +kernel]
    exact .cons (himu _ 0 (by decide +kernel) (by decide +kernel) (by decide +kernel) (by decide +kernel))
      (.cons (himu _ 1 (by decide +kernel) (by decide +kernel) (by decide +kernel) (by decide +kernel))
        (.cons (himu _ 2 (by decide +kernel) (by decide +kernel) (by decide +kernel) (by decide +kernel)) .nil))
  · rw [show getLines _ = List.replicate 10 "0 0 4 1".toList by decide +kernel]
    have h : (fun l x => l ≠ [] ∧ Point exLib l x) "0 0 4 1".toList (⟨0, 0, 4⟩ : Vec3 ℚ) := ⟨by decide +kernel, scan_nums decGet 3 _ _ (by decide +kernel)⟩
    exact .cons h (.cons h (.cons h (.cons h (.cons h (.cons h (.cons h (.cons h (.cons h (.cons h .nil)))))))))
  · rw [show getLines _ = ["0 1 0 0 0 0 0 0".toList, "1 1 0 0 0 0 0 0".toList] by decide +kernel]
    exact .cons (hcam _ 0 (by decide +kernel) (by decide +kernel) (by decide +kernel) (by decide +kernel))
      (.cons (hcam _ 1 (by decide +kernel) (by decide +kernel) (by decide +kernel) (by decide +kernel)) .nil)

/-- C96, C97, C98: with these files the program saves the states at the times 2 and 3. -/
theorem ex_saved : (work exLib (exFs exImus) "" (fun _ => Backend.exEnv) true Backend.exProc).check (fun r => r.2.any (fun l => l.map (·.1) = [2, 3])) = true := by decide +kernel

/-- C97: the hypotheses hold for these files. -/
example : ∃ p' outs q, Backend.exProc.run (allOps (TimeOps.tlit 100) Backend.exProc.b.loader.offset (fun _ => Backend.exEnv) [(0, 0, ⟨0, 0, 10⟩), (1, 0, ⟨0, 0, 10⟩), (2, 0, ⟨0, 0, 10⟩)]
      (List.replicate 10 ⟨0, 0, 4⟩) [(0, .one, 0), (1, .one, 0)]) = .ok (p', outs) ∧
    work exLib (exFs exImus) "" (fun _ => Backend.exEnv) true Backend.exProc = .ok (q, some ((keep none (published outs)).map rowOf)) :=
  C97_defined_partial exLib (exFs exImus) "" _ Backend.exProc _ _ _ rfl ex_files (by decide) Backend.ex_fresh Backend.ex_ready (by decide)

/-- C96, incomplete lines: a line with a time and one number keeps the other two. -/
example : (Vars.read exLib ⟨some 9, [some 5, some 6, some 7]⟩ "1 2 ".toList).ts = some 1 ∧ (Vars.read exLib ⟨some 9, [some 5, some 6, some 7]⟩ "1 2 ".toList).v = [some 2, some 6, some 7] := by
  decide +kernel

/-- C97 is false for short lines: an IMU file whose first line ends after the attitude hands uninitialised numbers to the filter. -/
theorem C97_short_line : work exLib (exFs "0 1 0 0 0\n") "" (fun _ => Backend.exEnv) true Backend.exProc = .ub .uninitialised := by
  have h : (match loadIMUData exLib (TimeOps.tlit 100) (exFs "0 1 0 0 0\n") "" Backend.exProc with | .ub .uninitialised => true | _ => false) = true := by decide +kernel
  unfold work
  split at h
  · next h1 => rw [h1]; rfl
  · cases h

/-- A backend with only the first camera configured. -/
def exOne : BProc ℚ ℚ :=
  { Backend.exProc with b := { Backend.exBackend with u := { Backend.exBackend.u with w := { Backend.exBackend.u.w with frm := { Backend.exBackend.u.w.frm with extrinsics := [⟨.one, 0⟩] } } } } }

/-- C97 is false for one camera: the program always sends observations of two. -/
theorem C97_one_camera : ∃ r, work exLib (exFs exImus) "" (fun _ => Backend.exEnv) true exOne = .ub r := by
  have h : (work exLib (exFs exImus) "" (fun _ => Backend.exEnv) true exOne).check (fun _ => true) = false := by decide +kernel
  cases hw : work exLib (exFs exImus) "" (fun _ => Backend.exEnv) true exOne with
  | ub r => exact ⟨r, rfl⟩
  | ok a => rw [hw] at h; cases h

/-- C96: data before the time 99 are read to the end, of later data only one line. -/
example : imuOps (K := ℚ) (TimeOps.tlit 100) (-1 : ℚ) [(98, 0, 0), (99, 0, 0), (199/2, 0, 0), (100, 0, 0)] = [.imu ⟨0, 0, 98⟩, .imu ⟨0, 0, 99⟩, .imu ⟨0, 0, 199/2⟩] := by
  have h1 : late (TimeOps.tlit 100) (-1 : ℚ) 98 = false := by decide +kernel
  have h2 : late (TimeOps.tlit 100) (-1 : ℚ) 99 = false := by decide +kernel
  have h3 : late (TimeOps.tlit 100) (-1 : ℚ) (199/2) = true := by decide +kernel
  simp [imuOps, throughFirst, imuOf, h1, h2, h3]

/-- C99: samples every tenth of a second and images that fit. -/
example : Covered (1/10 : ℚ) [(⟨0, 0, 0⟩ : ImuMsg ℚ ℚ), ⟨0, 0, 1/10⟩, ⟨0, 0, 2/10⟩] [⟨[], [], 5/100⟩, ⟨[], [], 2/10⟩] :=
  ⟨[⟨0, 0, 0⟩], ⟨0, 0, 1/10⟩, [⟨0, 0, 2/10⟩], rfl, by simp; decide +kernel, by decide +kernel, by decide +kernel,
    [], ⟨0, 0, 2/10⟩, [], rfl, by simp, by decide +kernel, by decide +kernel, trivial⟩

/-- C99: an image one period before the first sample is taken alone and a sample is left behind. -/
theorem C99_left_over : (pops 2 (⟨[⟨[], [], 0⟩], [⟨0, 0, 1/10⟩, ⟨0, 0, 2/10⟩], -1, 1/10⟩ : Loader ℚ ℚ)).imuMeas.length = 1 := by decide +kernel

/-- C100: a point straight ahead of camera 0 at the origin is in front of both cameras. -/
example : Spec.ShowsExactly [⟨qbc, pbc0⟩, ⟨qbc, pbc1⟩] (fun id => [(⟨0, 0, 4⟩ : Vec3 ℝ)].getD id 0) ⟨(bodyPose Quat.one 0).2, 0, (bodyPose Quat.one 0).1⟩
    (camMsg [(⟨0, 0, 4⟩ : Vec3 ℝ)] (0, Quat.one, 0)) := by
  refine C100_sight _ 0 _ 0 0 (by simp [Quat.one, Quat.sqNorm]) ?_ ?_
  · intro x hx
    obtain rfl : x = ⟨0, 0, 4⟩ := by simpa using hx
    simp [Quat.one, Quat.inverse, Quat.sqNorm, Quat.rotate, Quat.vec]
  · intro x hx
    obtain rfl : x = ⟨0, 0, 4⟩ := by simpa using hx
    rw [(camera0 _ _).1]
    simp [Quat.one, Quat.inverse, Quat.sqNorm, Quat.rotate, Quat.vec, Quat.mul, bodyPose, qbc, pbc0, pbc1]
    norm_num

end Demo
end Vio
