/-
The world turned about gravity: what changes in the state of the filter, in its covariance and in the results of the decompositions.
-/
import Verif.Spec.Update
import Verif.Spec.Geometry
import Verif.Spec.Reckon
import Verif.Model.Backend

set_option linter.unusedSectionVars false

namespace Vio

/-- The triples `b` of state components (three numbers each, `nc` cameras) that are vectors of the world frame: position and velocity of the body, positions of the old frames.  The others are
angles in the body frame, biases and extrinsics. -/
def inWorld (nc b : Nat) : Bool := decide (b < 2) || (decide (5 + 2 * nc ≤ b) && (b - 5) % 2 == 0)

/-- The vector `x` with the triples chosen by `sel` turned by `R`. -/
noncomputable def turnTriples (R : Mat3 ℝ) (sel : Nat → Bool) (x : Nat → ℝ) (i : Nat) : ℝ :=
  if sel (i / 3) then R.get (i % 3) 0 * x (3 * (i / 3)) + R.get (i % 3) 1 * x (3 * (i / 3) + 1) + R.get (i % 3) 2 * x (3 * (i / 3) + 2) else x i

/-- `a'` is `a` with the chosen triples of columns turned, except for the last column, which is the same. -/
structure SystemTurned (R : Mat3 ℝ) (sel : Nat → Bool) (a a' : DMat ℝ) : Prop where
  rows : a'.rows = a.rows
  cols : a'.cols = a.cols
  width : a.cols % 3 = 1
  coef : ∀ i j, i < a.rows → j + 1 < a.cols → a'.e i j = turnTriples R sel (a.e i) j
  rhs : ∀ i, i < a.rows → a'.e i (a.cols - 1) = a.e i (a.cols - 1)

/-- `a'` is `a` with the chosen triples of columns turned. -/
structure ColsTurned (R : Mat3 ℝ) (sel : Nat → Bool) (a a' : DMat ℝ) : Prop where
  rows : a'.rows = a.rows
  cols : a'.cols = a.cols
  width : a.cols % 3 = 0
  coef : ∀ i j, i < a.rows → j < a.cols → a'.e i j = turnTriples R sel (a.e i) j

/-- `c'` is the covariance `c` of the turned error. -/
structure CovTurned (R : Mat3 ℝ) (sel : Nat → Bool) (c c' : DMat ℝ) : Prop where
  rows : c'.rows = c.rows
  cols : c'.cols = c.cols
  coef : ∀ i j, i < c.rows → j < c.cols → c'.e i j = turnTriples R sel (fun k => turnTriples R sel (c.e k) j) i

/-- The columns that the decomposition of a matrix with `c` columns sees turned: a landmark (three columns), or the state. -/
def turnedCols (nc c b : Nat) : Bool := if c = 3 then true else inWorld nc b

/-- The decompositions read only the entries of the matrix they are given. -/
def Ext.ReadsMatrix (ext : Ext ℝ) : Prop :=
  ∀ a b : DMat ℝ, a.rows = b.rows → a.cols = b.cols → (∀ i j, i < a.rows → j < a.cols → a.e i j = b.e i j) →
    ext.svdLast a = ext.svdLast b ∧ ext.qrQ a = ext.qrQ b ∧ ext.eigVal a = ext.eigVal b ∧ ext.eigVec a = ext.eigVec b

/-- Product of a matrix and a vector with six components. -/
def Mat6.apply (h : Mat6 ℝ) (x : Vec6 ℝ) : Vec6 ℝ := ⟨h.pp.mulVec x.p + h.pr.mulVec x.r, h.rp.mulVec x.p + h.rr.mulVec x.r⟩

/-- What the decompositions promise: the last singular vector of a matrix with four columns, QR and eigendecomposition, and a solution of six equations that have one. -/
structure Ext.Correct (ext : Ext ℝ) : Prop where
  good : Spec.GoodExt ext
  svd : ∀ a : DMat ℝ, a.cols = 4 → Spec.IsLastSingular a (ext.svdLast a)
  solve : ∀ (h : Mat6 ℝ) (b : Vec6 ℝ), (∃ x, h.apply x = b) → h.apply (ext.ldlt6 h b) = b

/-- Library results in the turned world: the same ones, turned.  The singular vector may change its sign. -/
structure ExtTurned (r : Quat ℝ) (nc : Nat) (ext ext' : Ext ℝ) : Prop where
  svd : ∀ a a', SystemTurned r.toMat (fun b => b == 0) a a' → a.cols = 4 →
    ∃ s : ℝ, s * s = 1 ∧ ext'.svdLast a' 3 = s * ext.svdLast a 3 ∧
      (⟨ext'.svdLast a' 0, ext'.svdLast a' 1, ext'.svdLast a' 2⟩ : Vec3 ℝ) = .smul s (r.rotate ⟨ext.svdLast a 0, ext.svdLast a 1, ext.svdLast a 2⟩)
  solve : ∀ (h : Mat6 ℝ) (b : Vec6 ℝ),
    ext'.ldlt6 ⟨(r.toMat.mul h.pp).mul r.toMat.transpose, r.toMat.mul h.pr, h.rp.mul r.toMat.transpose, h.rr⟩ ⟨r.rotate b.p, b.r⟩ = ⟨r.rotate (ext.ldlt6 h b).p, (ext.ldlt6 h b).r⟩
  qr : ∀ a a', ColsTurned r.toMat (turnedCols nc a.cols) a a' → ∀ i j, i < a.rows → j < a.rows → ext'.qrQ a' i j = ext.qrQ a i j
  eig : ∀ a a' : DMat ℝ, a'.rows = a.rows → a'.cols = a.cols → (∀ i j, i < a.rows → j < a.cols → a'.e i j = a.e i j) →
    (∀ k, k < a.rows → ext'.eigVal a' k = ext.eigVal a k) ∧ ∀ i k, i < a.rows → k < a.rows → ext'.eigVec a' i k = ext.eigVec a i k

variable {T : Type}

/-- A frame of the turned world: same identity, time and features, turned pose. -/
structure FrameTurned (r : Quat ℝ) (f f' : Frame ℝ T) : Prop where
  addr : f'.addr = f.addr
  features : f'.features = f.features
  id : f'.id = f.id
  ts : f'.ts = f.ts
  p : f'.p = r.rotate f.p
  v : f'.v = r.rotate f.v
  q : f'.q = r.mul f.q
  unit : f.q.sqNorm = 1

/-- Frame managers of both worlds: the cameras are mounted in the same way. -/
structure FramesTurned (r : Quat ℝ) (m m' : FrameMgr ℝ T) : Prop where
  frames : List.Forall₂ (FrameTurned r) m.frames m'.frames
  nextAddr : m'.nextAddr = m.nextAddr
  extrinsics : m'.extrinsics = m.extrinsics
  mounted : ∀ e ∈ m.extrinsics, e.q.sqNorm = 1
  maxWindowSize : m'.maxWindowSize = m.maxWindowSize
  minTracked : m'.minTracked = m.minTracked
  minParallax : m'.minParallax = m.minParallax
  maxTranslation : m'.maxTranslation = m.maxTranslation

/-- The feature manager of the turned world: every landmark turned, all else the same. -/
def featTurned (r : Quat ℝ) (s : FMgr ℝ) : FMgr ℝ := { s with heap := fun i => { s.heap i with pw := r.rotate (s.heap i).pw } }

/-- The window of the turned world. -/
structure WinTurned (r : Quat ℝ) (w w' : Win ℝ T) : Prop where
  feat : w'.feat = featTurned r w.feat
  frm : FramesTurned r w.frm w'.frm

/-- The environment of a call in the turned world: turned library results, the same random numbers and the same memory. -/
structure EnvTurned (r : Quat ℝ) (nc : Nat) (env env' : Env ℝ) : Prop where
  ext : ExtTurned r nc env.ext env'.ext
  rnd : env'.rnd = env.rnd
  key : env'.key = env.key
  junk : env'.junk = env.junk

/-- A motion state in the turned world. -/
def Motion.turned (r : Quat ℝ) (s : Motion ℝ) : Motion ℝ := ⟨r.rotate s.p, r.rotate s.v, r.mul s.q⟩

/-- A matrix over pairs of state components, with the chosen triples of rows and columns turned. -/
noncomputable def turnedMat (R : Mat3 ℝ) (rows cols : Nat → Bool) (c : DMat ℝ) : DMat ℝ :=
  ⟨c.rows, c.cols, fun i j => turnTriples R rows (fun k => turnTriples R cols (c.e k) j) i⟩

/-- A queued state in the turned world: motion and covariance turned, the sample the same. -/
noncomputable def PropItem.turned (r : Quat ℝ) (nc : Nat) (i : PropItem ℝ T) : PropItem ℝ T :=
  { i with
    st := i.st.turned r
    imuCov := turnedMat r.toMat (inWorld nc) (inWorld nc) i.imuCov
    imuEx := turnedMat r.toMat (inWorld nc) (fun b => inWorld nc (b + 5)) i.imuEx }

/-- The propagation queue in the turned world; `nc` cameras. -/
noncomputable def PropQueue.turned (r : Quat ℝ) (nc : Nat) (s : PropQueue ℝ T) : PropQueue ℝ T :=
  { s with
    items := s.items.map (PropItem.turned r nc)
    exCamCov := turnedMat r.toMat (fun b => inWorld nc (b + 5)) (fun b => inWorld nc (b + 5)) s.exCamCov
    initState := s.initState.turned r }

/-- A frame with its pose turned. -/
def Frame.turned (r : Quat ℝ) (f : Frame ℝ T) : Frame ℝ T := { f with p := r.rotate f.p, v := r.rotate f.v, q := r.mul f.q }

/-- The backend in the turned world: positions, velocities, attitudes, landmarks and the covariance turned; biases, extrinsics, messages, settings and status the same. -/
noncomputable def Backend.turned (r : Quat ℝ) (b : Backend ℝ T) : Backend ℝ T :=
  { b with
    u := { b.u with
      q := b.u.q.turned r b.u.w.frm.extrinsics.length
      w := ⟨featTurned r b.u.w.feat, { b.u.w.frm with frames := b.u.w.frm.frames.map (Frame.turned r) }⟩ }
    att := { b.att with items := b.att.items.map (fun i => { i with q := r.mul i.q }) } }

/-- The attitude estimation has started and all quaternions are unit quaternions.  A single frame of a filter that is not initialised has no pose yet. -/
structure Oriented (b : Backend ℝ T) : Prop where
  started : b.att.items ≠ []
  att : ∀ i ∈ b.att.items, i.q.sqNorm = 1
  queue : ∀ i ∈ b.u.q.items, i.st.q.sqNorm = 1
  mounted : ∀ e ∈ b.u.w.frm.extrinsics, e.q.sqNorm = 1
  frames : (b.u.w.frm.frames ≠ [] ∧ ∀ f ∈ b.u.w.frm.frames, f.q.sqNorm = 1) ∨ (b.status = .needInit ∧ b.u.w.frm.frames.length ≤ 1)

/-- A published state in the turned world: motion turned, biases and time the same. -/
structure PublishedTurned (r : Quat ℝ) (s s' : Published ℝ T) : Prop where
  st : s'.st = s.st.turned r
  unit : s.st.q.sqNorm = 1
  biasA : s'.biasA = s.biasA
  biasG : s'.biasG = s.biasG
  ts : s'.ts = s.ts

/-- What a call hands back in the turned world. -/
inductive OutTurned (r : Quat ℝ) : BOut ℝ T → BOut ℝ T → Prop
  | ret (x : Bool) : OutTurned r (.ret x) (.ret x)
  | state {s s'} (h : Option.Rel (PublishedTurned r) s s') : OutTurned r (.state s) (.state s')
  | none : OutTurned r .none .none

end Vio
