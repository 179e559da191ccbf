/-
Specification vocabulary for the measurement update.  Nothing here refers to the steps of the update.
-/
import Verif.Model.Ext
import Verif.Lemmas.Matrix

namespace Vio.Spec

variable {K : Type}

/-- Entries of a joint covariance given by the IMU part, the cross part and the camera part: `[[imu, ex], [exᵀ, cam]]` with an IMU part of size 15. -/
def jointEntry (imu ex cam : Nat → Nat → K) (i j : Nat) : K :=
  if i < 15 then (if j < 15 then imu i j else ex i (j - 15))
  else (if j < 15 then ex j (i - 15) else cam (i - 15) (j - 15))

/-- The state component that the `i`-th component of the augmented state (of size `n + 6`) is a copy of: the first `n` are the old ones, the last six are a clone of
position (components 0 to 2) and attitude (components 6 to 8). -/
def cloneIdx (n i : Nat) : Nat := if i < n then i else if i < n + 3 then i - n else 6 + (i - n - 3)

/-- Augmentation matrix: row `i` selects the component `cloneIdx n i`. -/
def cloneMat (n : Nat) : Matrix (Fin (n + 6)) (Fin n) ℝ := fun i j => if j.val = cloneIdx n i then 1 else 0

/-- Position before the removal of six components starting at `o` of component `i` after it. -/
def skipIdx (o i : Nat) : Nat := if i < o then i else i + 6

/-- Symmetric up to size `n`. -/
def SymmTo (n : Nat) (e : Nat → Nat → K) : Prop := ∀ i j, i < n → j < n → e i j = e j i

/-- Specification of the orthogonal factor of a QR decomposition of `a`, as far as the filter relies on it: orthogonal, and its transpose makes the rows of `a` below the square part zero
(an upper triangular matrix has this form). -/
structure IsQR (a : DMat ℝ) (q : Nat → Nat → ℝ) : Prop where
  orth : (Matrix.of fun (i j : Fin a.rows) => q i j).transpose * (Matrix.of fun (i j : Fin a.rows) => q i j) = 1
  below : ∀ (i : Fin a.rows) (j : Fin a.cols), a.cols ≤ i.val → ((Matrix.of fun (i j : Fin a.rows) => q i j).transpose * a.toM a.rows a.cols) i j = 0

/-- Specification of an eigendecomposition of a symmetric matrix: orthonormal eigenvectors in the columns of `v`, eigenvalues `d`. -/
structure IsEig (a : DMat ℝ) (d : Nat → ℝ) (v : Nat → Nat → ℝ) : Prop where
  orth : (Matrix.of fun (i j : Fin a.rows) => v i j).transpose * (Matrix.of fun (i j : Fin a.rows) => v i j) = 1
  diag : a.toM a.rows a.rows = (Matrix.of fun (i j : Fin a.rows) => v i j) * Matrix.diagonal (fun k : Fin a.rows => d k) *
    (Matrix.of fun (i j : Fin a.rows) => v i j).transpose

/-- A decomposition that meets its specification for every matrix. -/
structure GoodExt (ext : Ext ℝ) : Prop where
  qr : ∀ a, IsQR a (ext.qrQ a)
  eig : ∀ a : DMat ℝ, a.rows = a.cols → SymmTo a.rows a.e → IsEig a (ext.eigVal a) (ext.eigVec a)

/-- Predicted normalised observation of the world point `pw`: IMU pose `qwb`, `pwb`, camera pose in the body frame `qbc`, `pbc`. -/
noncomputable def predict (qwb : Quat ℝ) (pwb : Vec3 ℝ) (qbc : Quat ℝ) (pbc pw : Vec3 ℝ) : Vec2 ℝ :=
  let c := qbc.inverse.rotate (qwb.inverse.rotate (pw - pwb) - pbc)
  ⟨c.x / c.z, c.y / c.z⟩

/-- Depth of the world point `pw` in that camera. -/
noncomputable def camDepth (qwb : Quat ℝ) (pwb : Vec3 ℝ) (qbc : Quat ℝ) (pbc pw : Vec3 ℝ) : ℝ :=
  (qbc.inverse.rotate (qwb.inverse.rotate (pw - pwb) - pbc)).z

/-- Row `r` of the measurement matrix applied to a landmark error and a state error. -/
noncomputable def rowApply (a : DMat ℝ) (r n : Nat) (dw : Vec3 ℝ) (dx : Nat → ℝ) : ℝ :=
  ∑ y ∈ Finset.range 3, a.e r y * dw.get y + ∑ y ∈ Finset.range n, a.e r (3 + y) * dx y

end Vio.Spec
