/-
Model of `src/config/config.cpp` and `include/config/config.hpp`.

A file is its list of characters; a file system maps paths to files, `none` when a path cannot be opened.  `Information` (config.cpp:76-106) is in `Verif/Model/Print`.
-/
import Verif.Model.Matrix

set_option linter.unusedSectionVars false

namespace Vio

/-- Library behaviour the configuration depends on. -/
structure ConfLib (K : Type) where
  /-- `std::num_get` on text that starts with a non-space character: the value stored, whether the stream did not fail, the text left. -/
  numGet : List Char → K × Bool × List Char
  /-- contents of freshly allocated matrix memory -/
  junk : Nat → Nat → K
  /-- conversion of `Scalar` to `uint32_t`; `none` when the value does not fit -/
  toU32 : K → Option Nat

/-- `std::isspace` in the classic locale. -/
def isSpace (c : Char) : Bool := c == ' ' || c == '\t' || c == '\n' || c == '\x0b' || c == '\x0c' || c == '\r'

/-- The lines `std::getline` delivers; `acc` holds the characters of the current line in reverse. -/
def getLinesAux (acc : List Char) : List Char → List (List Char)
  | [] => if acc.isEmpty then [] else [acc.reverse]
  | c :: cs => if c = '\n' then acc.reverse :: getLinesAux [] cs else getLinesAux (c :: acc) cs

/-- All lines of a file. -/
def getLines (cs : List Char) : List (List Char) := getLinesAux [] cs

/-- State of an `std::istringstream`: remaining text and `good()`. -/
structure SStream where
  rest : List Char
  good : Bool

/-- `Configurator` (config.hpp:7-61) without the parameters nothing reads. -/
structure Config (K : Type) where
  sigmaA : K
  sigmaG : K
  sigmaWA : K
  sigmaWG : K
  gravity : K
  biasA : Vec3 K
  biasG : Vec3 K
  period : K
  sigmaVision : K
  maxFrameNum : Nat
  maxFeatures : Nat
  maxCameraNum : Nat
  minTracked : Nat
  minParallax : K
  maxTranslation : K
  qbc : List (Quat K)
  pbc : List (Vec3 K)

variable {K : Type} [Add K] [Sub K] [Mul K] [Neg K] [Div K] [Zero K] [One K] [ScalarFn K]

namespace Config

/-- Default member initialisers (config.hpp:10-38). -/
def default : Config K :=
  { sigmaA := lit (19/1000), sigmaG := lit (15/1000), sigmaWA := lit (1/1000), sigmaWG := lit (1/10000), gravity := lit (98/10)
    biasA := 0, biasG := 0, period := lit (5/1000), sigmaVision := lit (21739/10000000)
    maxFrameNum := 6, maxFeatures := 30, maxCameraNum := 2, minTracked := 25, minParallax := lit (2/10), maxTranslation := lit (1/10)
    qbc := [], pbc := [] }

end Config

/-- Eigen's conversion of a `3 x 3` matrix to a quaternion (`quaternionbase_assign_impl`, used at config.cpp:49). -/
def Quat.ofMat (m : Mat3 K) : Quat K :=
  if ScalarFn.lt 0 m.trace then
    let s := ScalarFn.sqrt (m.trace + 1)
    let t := lit (1/2) / s
    ⟨lit (1/2) * s, (m.r2.y - m.r1.z) * t, (m.r0.z - m.r2.x) * t, (m.r1.x - m.r0.y) * t⟩
  else
    let i := if ScalarFn.lt m.r0.x m.r1.y then 1 else 0
    let i := if ScalarFn.lt (m.get i i) m.r2.z then 2 else i
    let j := (i + 1) % 3
    let k := (j + 1) % 3
    let s := ScalarFn.sqrt (m.get i i - m.get j j - m.get k k + 1)
    let t := lit (1/2) / s
    let ci := lit (1/2) * s
    let w := (m.get k j - m.get j k) * t
    let cj := (m.get j i + m.get i j) * t
    let ck := (m.get k i + m.get i k) * t
    let c (n : Nat) : K := if n = i then ci else if n = j then cj else ck
    ⟨w, c 0, c 1, c 2⟩

namespace Conf

/-- `Matrix::resize` (config.cpp:117): column-major memory is kept when the number of entries stays the same, otherwise it is new. -/
def resize (lib : ConfLib K) (m : DMat K) (r c : Nat) : DMat K :=
  if m.rows * m.cols = r * c then ⟨r, c, fun i j => m.e ((j * r + i) % m.rows) ((j * r + i) / m.rows)⟩ else ⟨r, c, lib.junk⟩

/-- `mat(i, j) = v`; outside the matrix is undefined. -/
def setEntry (m : DMat K) (i j : Nat) (v : K) : Res (DMat K) :=
  if i < m.rows ∧ j < m.cols then .ok ⟨m.rows, m.cols, fun x y => if x = i ∧ y = j then v else m.e x y⟩ else .ub .outOfRange

/-- `stream >> x` (config.cpp:122): the new value of `x`, whose old value is `old`.  A stream that is not good, or has only spaces left, leaves `x` alone. -/
def extract (lib : ConfLib K) (s : SStream) (old : K) : K × SStream :=
  if !s.good then (old, s)
  else
    let d := s.rest.dropWhile isSpace
    if d.isEmpty then (old, ⟨[], false⟩)
    else
      let r := lib.numGet d
      (r.1, ⟨r.2.2, r.2.1 && !r.2.2.isEmpty⟩)

/-- The loop over the columns (config.cpp:121-123): `n` columns left, starting at `col`. -/
def readRow (lib : ConfLib K) (row : Nat) : Nat → Nat → SStream → DMat K → Res (DMat K)
  | 0, _, _, m => .ok m
  | n + 1, col, s, m => do
    let r := extract lib s (m.e row col)
    let m ← setEntry m row col r.1
    readRow lib row n (col + 1) r.2 m

/-- The loop over the lines (config.cpp:119-125). -/
def readLines (lib : ConfLib K) (cols : Nat) : Nat → DMat K → List (List Char) → Res (DMat K)
  | _, m, [] => .ok m
  | row, m, l :: ls =>
    if l.isEmpty then .ok m
    else do
      let m ← readRow lib row cols 0 ⟨l, true⟩ m
      readLines lib cols (row + 1) m ls

/-- `LoadMatrix` (config.cpp:110-127): return value and matrix. -/
def load (lib : ConfLib K) (fs : String → Option (List Char)) (name : String) (r c : Nat) (m : DMat K) : Res (Bool × DMat K) :=
  match fs name with
  | none => .ok (false, m)
  | some cs => do
    let m ← readLines lib c 0 (resize lib m r c) (getLines cs)
    .ok (true, m)

/-- Conversion to `uint32_t` (config.cpp:57, 67). -/
def convU32 (lib : ConfLib K) (x : K) : Res Nat :=
  match lib.toU32 x with
  | some n => .ok n
  | none => .ub .badConversion

/-- The configurator singleton together with the static `tempMat` of `ReadConfigParams` (config.cpp:17). -/
structure St (K : Type) where
  cfg : Config K
  temp : DMat K

/-- The state when the process starts. -/
def St.init : St K := ⟨.default, .zero 0 0⟩

/-- One `if (LoadMatrix(...)) { ... }`. -/
def onFile (lib : ConfLib K) (fs : String → Option (List Char)) (name : String) (r c : Nat) (s : St K) (f : DMat K → Res (Config K)) : Res (St K) := do
  let (found, m) ← load lib fs name r c s.temp
  if found then do
    let cfg ← f m
    .ok ⟨cfg, m⟩
  else .ok ⟨s.cfg, m⟩

/-- The top left 3 x 3 and top right 3 x 1 corner of a 4 x 4 matrix (config.cpp:48-49). -/
def corner (m : DMat K) : Mat3 K × Vec3 K :=
  (⟨⟨m.e 0 0, m.e 0 1, m.e 0 2⟩, ⟨m.e 1 0, m.e 1 1, m.e 1 2⟩, ⟨m.e 2 0, m.e 2 1, m.e 2 2⟩⟩, ⟨m.e 0 3, m.e 1 3, m.e 2 3⟩)

/-- File name of a camera (config.cpp:47). -/
def camFile (path : String) (n : Nat) : String := path ++ "/T_bc" ++ toString n ++ ".txt"

/-- The loop over the cameras (config.cpp:47-53); the first argument bounds the passes, `none` when it runs out. -/
def loadCams (lib : ConfLib K) (fs : String → Option (List Char)) (path : String) : Nat → St K → Res (Option (St K))
  | 0, _ => .ok none
  | fuel + 1, s => do
    let (found, m) ← load lib fs (camFile path s.cfg.maxCameraNum) 4 4 s.temp
    if found then
      let c := corner m
      loadCams lib fs path fuel
        ⟨{ s.cfg with pbc := s.cfg.pbc ++ [c.2], qbc := s.cfg.qbc ++ [Quat.ofMat c.1], maxCameraNum := add32 s.cfg.maxCameraNum 1 }, m⟩
    else .ok (some ⟨s.cfg, m⟩)

/-- The first part of `ReadConfigParams` (config.cpp:19-46). -/
def readImu (lib : ConfLib K) (fs : String → Option (List Char)) (path : String) (s : St K) : Res (St K) := do
  let s ← onFile lib fs (path ++ "/imu_frequence.txt") 1 1 s (fun m => .ok { s.cfg with period := lit 1 / m.e 0 0 })
  let s ← onFile lib fs (path ++ "/imu_na_ng_nwa_nwg.txt") 1 4 s
    (fun m => .ok { s.cfg with sigmaA := m.e 0 0, sigmaG := m.e 0 1, sigmaWA := m.e 0 2, sigmaWG := m.e 0 3 })
  let s ← onFile lib fs (path ++ "/imu_bias_a_g_init.txt") 2 3 s
    (fun m => .ok { s.cfg with biasA := ⟨m.e 0 0, m.e 0 1, m.e 0 2⟩, biasG := ⟨m.e 1 0, m.e 1 1, m.e 1 2⟩ })
  let s ← onFile lib fs (path ++ "/gravity_norm.txt") 1 1 s (fun m => .ok { s.cfg with gravity := m.e 0 0 })
  .ok ⟨{ s.cfg with pbc := [], qbc := [], maxCameraNum := 0 }, s.temp⟩

/-- The last part of `ReadConfigParams` (config.cpp:55-70). -/
def readVision (lib : ConfLib K) (fs : String → Option (List Char)) (path : String) (s : St K) : Res (St K) := do
  let s ← onFile lib fs (path ++ "/window_size.txt") 1 1 s (fun m => do
    let n ← convU32 lib (m.e 0 0)
    .ok { s.cfg with maxFrameNum := n })
  let s ← onFile lib fs (path ++ "/vision_measure_noise.txt") 1 1 s (fun m => .ok { s.cfg with sigmaVision := m.e 0 0 })
  onFile lib fs (path ++ "/keyframe_policy.txt") 1 3 s (fun m => do
    let n ← convU32 lib (m.e 0 0)
    .ok { s.cfg with minTracked := n, minParallax := m.e 0 1, maxTranslation := m.e 0 2 })

/-- `ReadConfigParams` (config.cpp:16-72): return value and state; `none` when the bound on the camera loop runs out. -/
def readConfig (lib : ConfLib K) (fs : String → Option (List Char)) (path : String) (fuel : Nat) (s : St K) : Res (Option (Bool × St K)) := do
  let s ← readImu lib fs path s
  let s ← loadCams lib fs path fuel s
  match s with
  | none => .ok none
  | some s => do
    let s ← readVision lib fs path s
    .ok (some (true, s))

end Conf
end Vio
