/-
Specification for the demo program: what its text files say and which messages they stand for.  Uses only the scanners of the C++ library and the notion of a line.
-/
import Verif.Model.Demo
import Verif.Spec.Config
import Verif.Scalar

namespace Vio.DemoSpec
open ConfSpec

variable {K T : Type}

/-- A line with a time and these numbers behind it. -/
def Timed (lib : DemoLib K T) (line : List Char) (r : T × List K) : Prop :=
  line.dropWhile isSpace ≠ [] ∧ ∃ rest, lib.timeGet (line.dropWhile isSpace) = (r.1, true, rest) ∧ Nums lib.conf.numGet rest r.2

/-- A text with exactly these numbers, and only blanks behind them. -/
inductive OnlyNums {α : Type} (get : List Char → α × Bool × List Char) : List Char → List α → Prop
  | nil (text : List Char) : text.dropWhile isSpace = [] → OnlyNums get text []
  | cons (text rest : List Char) (v : α) (vs : List α) : text.dropWhile isSpace ≠ [] → get (text.dropWhile isSpace) = (v, true, rest) → OnlyNums get rest vs →
      OnlyNums get text (v :: vs)

/-- The file has one line for each of these rows, then the end of the file or an empty line. -/
def Lines {α : Type} (ok : List Char → α → Prop) (file : List Char) (rows : List α) : Prop :=
  ∃ ls tail, getLines file = ls ++ tail ∧ (tail = [] ∨ ∃ t, tail = [] :: t) ∧ List.Forall₂ (fun l r => l ≠ [] ∧ ok l r) ls rows

/-- The first elements of a list up to and including the first one that is marked. -/
def throughFirst {α : Type} (stop : α → Bool) : List α → List α
  | [] => []
  | a :: l => if stop a then [a] else a :: throughFirst stop l

/-- A row of the IMU file: time, attitude (4), position (3), angular rate, specific force. -/
def imuOf (a : T × Vec3 K × Vec3 K) : ImuMsg K T := ⟨a.2.1, a.2.2, a.1⟩

/-- The numbers of a row of the IMU file. -/
def IsImuRow (r : T × List K) (a : T × Vec3 K × Vec3 K) : Prop :=
  r.1 = a.1 ∧ ∃ q0 q1 q2 q3 x y z : K, r.2 = [q0, q1, q2, q3, x, y, z, a.2.1.x, a.2.1.y, a.2.1.z, a.2.2.x, a.2.2.y, a.2.2.z]

/-- The numbers of a row of the camera file: time, attitude and position of camera 0. -/
def IsCamRow (r : T × List K) (a : T × Quat K × Vec3 K) : Prop := r.1 = a.1 ∧ r.2 = [a.2.1.w, a.2.1.x, a.2.1.y, a.2.1.z, a.2.2.x, a.2.2.y, a.2.2.z]

/-- A line with the coordinates of a point (and possibly more). -/
def Point (lib : DemoLib K T) (line : List Char) (x : Vec3 K) : Prop := Nums lib.conf.numGet line [x.x, x.y, x.z]

/-- The states a history of calls has published. -/
def published : List (BOut K T) → List (Published K T)
  | [] => []
  | .state (some s) :: outs => s :: published outs
  | _ :: outs => published outs

/-- The calls of the main loop: `n` times `RunOnce` and `PublishPropagateState`, starting with environment number `i`. -/
def calls (envs : Nat → Env K) : Nat → Nat → List (BOp K T)
  | 0, _ => []
  | n + 1, i => .run (envs i) :: .publishPropagate :: calls envs n (i + 1)

/-- The row of the output file for a state. -/
def rowOf (s : Published K T) : Demo.Row K T := (s.ts, s.st.q, s.st.p, s.st.v, s.biasA, s.biasG)

/-- The images can be matched in order with samples of their own: each with the first sample left that is not before it, which comes less than one period later. -/
def Covered [TimeOps T] (period : T) : List (ImuMsg K T) → List (FeatMsg K T) → Prop
  | _, [] => True
  | imus, f :: fs => ∃ pre m post, imus = pre ++ m :: post ∧ (∀ x ∈ pre, TimeOps.le f.ts x.ts = false) ∧ TimeOps.le f.ts m.ts = true ∧
      TimeOps.lt (TimeOps.fabs (TimeOps.sub f.ts m.ts)) period = true ∧ Covered period post fs

/-- `RunOnce` takes `n` times a message from the loader. -/
def pops [TimeOps T] [Add K] [Sub K] [Mul K] [Neg K] [Div K] [Zero K] [One K] [ScalarFn K] [TimeCast T K] : Nat → Loader K T → Loader K T
  | 0, l => l
  | n + 1, l => pops n l.popOne.loader

/-- A table given by its rows. -/
def table [Zero K] (rows : List (List K)) (i j : Nat) : K := ((rows[i]?).bind (·[j]?)).getD 0

/-- The configuration directory says what the files in /repo/eskf_vio_backend/config say. -/
structure Shipped (lib : ConfLib ℝ) (fs : String → Option (List Char)) (path : String) : Prop where
  freq : Entry lib.numGet fs (path ++ "/imu_frequence.txt") 1 1 (some (table [[200]]))
  noise : Entry lib.numGet fs (path ++ "/imu_na_ng_nwa_nwg.txt") 1 4 (some (table [[19/1000, 15/1000, 1/10000, 1/100000]]))
  bias : Entry lib.numGet fs (path ++ "/imu_bias_a_g_init.txt") 2 3 (some (table [[0, 0, 0], [0, 0, 0]]))
  grav : Entry lib.numGet fs (path ++ "/gravity_norm.txt") 1 1 (some (table [[981/100]]))
  win : Entry lib.numGet fs (path ++ "/window_size.txt") 1 1 (some (table [[6]]))
  vis : Entry lib.numGet fs (path ++ "/vision_measure_noise.txt") 1 1 (some (table [[21739/10000000]]))
  key : Entry lib.numGet fs (path ++ "/keyframe_policy.txt") 1 3 (some (table [[30, 2/10, 5/100]]))
  cam0 : Entry lib.numGet fs (Conf.camFile path 0) 4 4 (some (table [[0, 0, -1, 5/100], [-1, 0, 0, 4/100], [0, 1, 0, 3/100], [0, 0, 0, 1]]))
  cam1 : Entry lib.numGet fs (Conf.camFile path 1) 4 4 (some (table [[0, 0, -1, 5/100], [-1, 0, 0, -14/100], [0, 1, 0, 3/100], [0, 0, 0, 1]]))
  cam2 : fs (Conf.camFile path 2) = none
  six : lib.toU32 6 = some 6
  thirty : lib.toU32 30 = some 30

end Vio.DemoSpec
