/-
The heading of the world frame is a convention: turning the state about gravity turns everything the filter publishes later.
-/
import Verif.Lemmas.TurnRun
import Verif.Props.HeadingLib
import Verif.Props.ExactRun

set_option linter.unusedSectionVars false

namespace Vio
open PropSpec Res

variable {T : Type} [TimeOps T] [TimeCast T ℝ]

theorem one_toMat : (Quat.one : Quat ℝ).toMat = .one := by
  apply Mat3.ext <;> apply Vec3.ext <;> simp [Quat.toMat, Quat.one, Mat3.one]

theorem one_unit : (Quat.one : Quat ℝ).sqNorm = 1 := by simp [Quat.sqNorm, Quat.one]

/-! ### The turned state -/

theorem forall₂_map {α β : Type} {R : α → β → Prop} {f : α → β} : ∀ {l : List α}, (∀ x ∈ l, R x (f x)) → List.Forall₂ R l (l.map f)
  | [], _ => .nil
  | x :: _, h => .cons (h x (List.mem_cons_self ..)) (forall₂_map (fun y hy => h y (List.mem_cons_of_mem _ hy)))

theorem turnedMat_pose (R : Mat3 ℝ) (nc : Nat) (s : Nat → Bool) (c : DMat ℝ) : turnedMat R s (fun b => inWorld nc (b + 5)) c = turnedMat R s (poseWorld nc) c := by
  have : (fun b => inWorld nc (b + 5)) = poseWorld nc := funext (inWorld_pose nc)
  rw [this]

theorem item_turned {r : Quat ℝ} {nc : Nat} {i : PropItem ℝ T} {X : DMat ℝ} (hj : JointPSD X i) (h3 : X.rows % 3 = 0) (hu : i.st.q.sqNorm = 1) : ItemTurned r nc i (i.turned r nc) := by
  refine ⟨⟨(move_turned r i.st).symm, hu, rfl, rfl, rfl, hj.cols, hj.cols, ?_, rfl, ?_⟩, hj.rows, hj.exRows⟩
  · rw [← turnM_eq r nc]
    exact (toM_turned r.toMat (inWorld nc) (inWorld nc) (m := 15) (n := 15) rfl rfl i.imuCov (i.turned r nc).imuCov).2 (fun _ _ _ _ => rfl)
  · rw [← turnM_eq r nc]
    refine (toM_turned r.toMat (inWorld nc) (poseWorld nc) (m := 15) (n := i.imuEx.cols) rfl (by rw [hj.exCols]; exact h3) i.imuEx (i.turned r nc).imuEx).2 (fun _ _ _ _ => ?_)
    show (turnedMat r.toMat (inWorld nc) (fun b => inWorld nc (b + 5)) i.imuEx).e _ _ = _
    rw [turnedMat_pose]
    rfl

namespace Backend

theorem turned_BTurned {r : Quat ℝ} {N : Nat} {b : Backend ℝ T} (ho : Oriented b) (hc : CovOk N b.u.w.frm.extrinsics.length b) (hcl : Clean b.u.q) (h3 : b.u.q.exCamCov.rows % 3 = 0) :
    BTurned r b.u.w.frm.extrinsics.length b (b.turned r) := by
  refine ⟨rfl, rfl, rfl, rfl, rfl, rfl, rfl, rfl, rfl, ?_, ?_, ?_⟩
  · refine ⟨forall₂_map (fun i hi => item_turned (hc.cov.psd i hi) h3 (ho.queue i hi)), rfl, rfl, rfl, ⟨rfl, ?_⟩, hc.cov.sq, h3, hcl, hcl⟩
    refine (toM_turned r.toMat (poseWorld _) (poseWorld _) (m := b.u.q.exCamCov.rows) (n := b.u.q.exCamCov.rows) h3 h3 b.u.q.exCamCov (b.turned r).u.q.exCamCov).2 (fun i j _ _ => ?_)
    have : (fun c => inWorld b.u.w.frm.extrinsics.length (c + 5)) = poseWorld b.u.w.frm.extrinsics.length := funext (inWorld_pose _)
    show (turnedMat r.toMat (fun c => inWorld b.u.w.frm.extrinsics.length (c + 5)) (fun c => inWorld b.u.w.frm.extrinsics.length (c + 5)) b.u.q.exCamCov).e _ _ = _
    rw [this]
    rfl
  · exact ⟨forall₂_map (fun i hi => ⟨rfl, ho.att i hi, rfl, rfl, rfl⟩), ho.started, rfl, rfl, rfl, rfl, rfl⟩
  · rcases ho.frames with ⟨h1, h2⟩ | ⟨h1, h2⟩
    · exact .inl ⟨⟨rfl, ⟨forall₂_map (fun f hf => ⟨rfl, rfl, rfl, rfl, rfl, rfl, rfl, h2 f hf⟩), rfl, rfl, ho.mounted, rfl, rfl, rfl, rfl⟩⟩, h1⟩
    · exact .inr ⟨⟨rfl, forall₂_map (fun f _ => ⟨rfl, rfl, rfl, rfl, False.elim⟩), rfl, rfl, ho.mounted, rfl, rfl, rfl, rfl⟩, h1, h2⟩

/-- What two backends of the two worlds tell about the first one. -/
theorem BTurned.oriented {r : Quat ℝ} {nc : Nat} {b b' : Backend ℝ T} (h : BTurned r nc b b') : Oriented b := by
  have key : ∀ {α β : Type} {R : α → β → Prop} {l : List α} {l' : List β}, List.Forall₂ R l l' → ∀ x ∈ l, ∃ y, R x y := by
    intro α β R l l' hl
    induction hl with
    | nil => intro x hx; exact absurd hx List.not_mem_nil
    | cons hxy _ ih =>
      intro x hx
      rcases List.mem_cons.1 hx with rfl | hx
      · exact ⟨_, hxy⟩
      · exact ih x hx
  refine ⟨h.att.ne, fun i hi => ?_, fun i hi => ?_, ?_, ?_⟩
  · obtain ⟨y, hy⟩ := key h.att.items i hi; exact hy.unit
  · obtain ⟨y, hy⟩ := key h.q.items i hi; exact hy.moved.unit
  · rcases h.win with ⟨h1, _⟩ | ⟨h1, _⟩
    · exact h1.frm.mounted
    · exact h1.mounted
  · rcases h.win with ⟨h1, h2⟩ | ⟨_, h2⟩
    · exact .inl ⟨h2, fun f hf => by obtain ⟨y, hy⟩ := key h1.frm.frames f hf; exact hy.unit⟩
    · exact .inr h2

theorem turned_one (b : Backend ℝ T) : b.turned .one = b := by
  have hM : ∀ s1 s2 (c : DMat ℝ), turnedMat .one s1 s2 c = c := by
    intro s1 s2 c
    cases c
    simp only [turnedMat, tt_one]
  have hm : ∀ s : Motion ℝ, s.turned .one = s := by intro s; cases s; simp only [Motion.turned, Quat.rotate_one, Quat.one_mul']
  have h1 : ∀ nc (l : List (PropItem ℝ T)), l.map (PropItem.turned .one nc) = l := by
    intro nc l
    have : PropItem.turned (T := T) .one nc = id := by funext i; simp only [PropItem.turned, one_toMat, hM, hm]; rfl
    rw [this, List.map_id]
  have h2 : ∀ l : List (Frame ℝ T), l.map (Frame.turned .one) = l := by
    intro l
    have : Frame.turned (T := T) .one = id := by funext i; simp only [Frame.turned, Quat.rotate_one, Quat.one_mul']; rfl
    rw [this, List.map_id]
  have h3 : ∀ l : List (AttItem ℝ T), l.map (fun i => { i with q := (Quat.one : Quat ℝ).mul i.q }) = l := by
    intro l
    have : (fun i : AttItem ℝ T => { i with q := (Quat.one : Quat ℝ).mul i.q }) = id := by funext i; simp only [Quat.one_mul']; rfl
    rw [this, List.map_id]
  simp only [Backend.turned, PropQueue.turned, one_toMat, hM, hm, h1, h2, h3, featTurned, Quat.rotate_one]

theorem env_same (nc : Nat) {env : Env ℝ} (h : env.ext.ReadsMatrix) : EnvTurned .one nc env env := by
  have he := ext_turned one_unit nc h
  have heq : ∀ a, (env.ext.turned .one nc).svdLast a = env.ext.svdLast a := by
    intro a
    show (if a.cols = 4 then _ else _) = _
    split
    · rw [one_toMat]
      have ht : (Mat3.one : Mat3 ℝ).transpose = .one := rfl
      rw [ht]
      have e : (⟨a.rows, a.cols, fun i => turnTriples .one (fun b => b == 0) (a.e i)⟩ : DMat ℝ) = a := by
        cases a
        simp only [DMat.mk.injEq, true_and]
        funext i j
        rw [tt_one]
      rw [e]
      funext i
      rw [tt_one]
    · rfl
  have hq : ∀ a, (env.ext.turned .one nc).qrQ a = env.ext.qrQ a := by
    intro a
    show (if a.cols % 3 = 0 then _ else _) = _
    split
    · have ht : (Mat3.one : Mat3 ℝ).transpose = .one := rfl
      rw [one_toMat, ht]
      congr 1
      cases a
      simp only [DMat.mk.injEq, true_and]
      funext i j
      rw [tt_one]
    · rfl
  refine ⟨⟨?_, ?_, ?_, he.eig⟩, rfl, rfl, rfl⟩
  · intro a a' h1 h2; have := he.svd a a' h1 h2; rwa [heq] at this
  · intro h b
    rw [one_toMat, Quat.rotate_one, Quat.rotate_one, mat3_one_mul, mat3_one_mul]
    have ht : (Mat3.one : Mat3 ℝ).transpose = .one := rfl
    rw [ht, mat3_mul_one, mat3_mul_one]
  · intro a a' h1; have := he.qr a a' h1; rwa [hq] at this

/-! ### C105 -/

/-- C105.  A filter whose state is turned about gravity goes on as the filter in the turned world: all positions, velocities and attitudes it hands out are turned, all else is the same.
Undefined behaviour occurs in both or in none. -/
theorem C105_heading {r : Quat ℝ} (hr : r.sqNorm = 1) (p : BProc ℝ T) (hg : r.rotate p.g = p.g) {N : Nat} (hN : (p.b.u.w.frm.extrinsics.length + (max 1 N + 1)) * 6 < two32)
    (ho : Oriented p.b) (hc : CovOk N p.b.u.w.frm.extrinsics.length p.b) (hcl : Clean p.b.u.q) (h3 : p.b.u.q.exCamCov.rows % 3 = 0) (ops ops' : List (BOp ℝ T))
    (hops : List.Forall₂ (OpSame (EnvTurned r p.b.u.w.frm.extrinsics.length)) ops ops') (hs : GoodSolvers ops) :
    Both (fun x y => List.Forall₂ (OutTurned r) x.2 y.2) (p.run ops) ((⟨p.statics, p.g, p.b.turned r⟩ : BProc ℝ T).run ops') :=
  (run_turned hr hN hg hops p.statics hs (turned_BTurned ho hc hcl h3) hc).mono (fun _ _ _ _ h => h.2)

/-- The call with the library of the turned world. -/
noncomputable def turnOp (r : Quat ℝ) (nc : Nat) : BOp ℝ T → BOp ℝ T
  | .run env => .run { env with ext := env.ext.turned r nc }
  | op => op

/-- C105: a library for the turned world exists for every one that reads only the matrices it is given, and keeps the same promises. -/
theorem C105_library {r : Quat ℝ} (hr : r.sqNorm = 1) (nc : Nat) (ext : Ext ℝ) (hm : ext.ReadsMatrix) :
    ∃ ext', ExtTurned r nc ext ext' ∧ ext'.ReadsMatrix ∧ (ext.Correct → ext'.Correct) :=
  ⟨_, ext_turned hr nc hm, turned_reads nc hm, turned_correct hr nc⟩

theorem turnOp_same {r : Quat ℝ} (hr : r.sqNorm = 1) (nc : Nat) (ops : List (BOp ℝ T)) (hm : ∀ env, .run env ∈ ops → env.ext.ReadsMatrix) :
    List.Forall₂ (OpSame (EnvTurned r nc)) ops (ops.map (turnOp r nc)) := by
  refine forall₂_map (fun op hop => ?_)
  cases op with
  | run env => exact .run _ _ ⟨ext_turned hr nc (hm env hop), rfl, rfl, rfl⟩
  | imu m => exact .imu m
  | feat m => exact .feat m
  | runTest => exact .runTest
  | publishPropagate => exact .publishPropagate
  | publishUpdate => exact .publishUpdate
  | reset => exact .reset

theorem same_ops (nc : Nat) : ∀ (ops : List (BOp ℝ T)), (∀ env, .run env ∈ ops → env.ext.ReadsMatrix) → List.Forall₂ (OpSame (EnvTurned .one nc)) ops ops
  | [], _ => .nil
  | op :: ops, hm => by
    refine .cons ?_ (same_ops nc ops (fun env h => hm env (List.mem_cons_of_mem _ h)))
    cases op with
    | run env => exact .run _ _ (env_same nc (hm env (List.mem_cons_self ..)))
    | imu m => exact .imu m
    | feat m => exact .feat m
    | runTest => exact .runTest
    | publishPropagate => exact .publishPropagate
    | publishUpdate => exact .publishUpdate
    | reset => exact .reset

/-- All attitudes handed out are unit quaternions. -/
def UnitOut : BOut ℝ T → Prop
  | .state (some s) => s.st.q.sqNorm = 1
  | _ => True

theorem oriented_run (p : BProc ℝ T) {N : Nat} (hN : (p.b.u.w.frm.extrinsics.length + (max 1 N + 1)) * 6 < two32)
    (ho : Oriented p.b) (hc : CovOk N p.b.u.w.frm.extrinsics.length p.b) (hcl : Clean p.b.u.q) (h3 : p.b.u.q.exCamCov.rows % 3 = 0) (ops : List (BOp ℝ T))
    (hs : GoodSolvers ops) (hm : ∀ env, .run env ∈ ops → env.ext.ReadsMatrix) (p' : BProc ℝ T) (outs : List (BOut ℝ T)) (h : p.run ops = .ok (p', outs)) :
    Oriented p'.b ∧ Clean p'.b.u.q ∧ p'.b.u.q.exCamCov.rows % 3 = 0 ∧ ∀ o ∈ outs, UnitOut o := by
  have hb : BTurned .one p.b.u.w.frm.extrinsics.length p.b p.b := by
    have := turned_BTurned (r := .one) ho hc hcl h3
    rwa [turned_one] at this
  have hrun := run_turned (r := .one) one_unit hN (Quat.rotate_one p.g) (same_ops _ ops hm) p.statics hs hb hc
  rw [show (⟨p.statics, p.g, p.b⟩ : BProc ℝ T) = p from rfl, h] at hrun
  obtain ⟨h1, h2⟩ := hrun
  refine ⟨h1.oriented, h1.q.clean, h1.q.third, fun o hmem => ?_⟩
  have key : ∀ {l l' : List (BOut ℝ T)}, List.Forall₂ (OutTurned .one) l l' → ∀ x ∈ l, UnitOut x := by
    intro l l' hl
    induction hl with
    | nil => intro x hx; exact absurd hx List.not_mem_nil
    | cons hxy _ ih =>
      intro x hx
      rcases List.mem_cons.1 hx with rfl | hx
      · cases hxy with
        | ret => trivial
        | none => trivial
        | state hst =>
          cases hst with
          | none => trivial
          | some hst => exact hst.unit
      · exact ih x hx
  exact key h2 o hmem

/-- C106: all quaternions stay unit quaternions.  From a configured filter that has seen a first IMU sample, after every defined history every attitude in the queue, in the window and in the
attitude filter is a unit quaternion, and so is every attitude handed out. -/
theorem C106_unit (p : BProc ℝ T) (na ng nwa nwg : ℝ) (h1 : 0 ≤ na) (h2 : 0 ≤ ng) (h3 : 0 ≤ nwa) (h4 : 0 ≤ nwg) (st : Motion ℝ) (ba bg : Vec3 ℝ)
    (hq : p.b.u.q = { PropQueue.init st with Q := PropQueue.noiseMatrix na ng nwa nwg, biasA := ba, biasG := bg }) (hf : p.b.u.w.frm.frames = []) (hst : p.b.status = .needInit)
    (ha : p.b.att.items ≠ []) (hu : ∀ i ∈ p.b.att.items, i.q.sqNorm = 1) (he : ∀ e ∈ p.b.u.w.frm.extrinsics, e.q.sqNorm = 1)
    (hN : (p.b.u.w.frm.extrinsics.length + (max 1 p.b.u.w.frm.maxWindowSize + 1)) * 6 < two32) (ops : List (BOp ℝ T)) (hs : GoodSolvers ops)
    (hm : ∀ env, .run env ∈ ops → env.ext.ReadsMatrix) (p' : BProc ℝ T) (outs : List (BOut ℝ T)) (h : p.run ops = .ok (p', outs)) :
    (Oriented p'.b ∧ Clean p'.b.u.q ∧ p'.b.u.q.exCamCov.rows % 3 = 0) ∧ ∀ o ∈ outs, UnitOut o := by
  have hc := covOk_start p.b na ng nwa nwg h1 h2 h3 h4 st ba bg hq hf hst
  have ho : Oriented p.b := ⟨ha, hu, by rw [hq]; exact fun i hi => absurd hi List.not_mem_nil, he, .inr ⟨hst, by rw [hf]; exact Nat.zero_le _⟩⟩
  have := oriented_run p hN ho hc (by rw [hq]; exact ⟨fun _ _ _ _ => rfl, fun _ _ => rfl⟩) (by rw [hq]; rfl) ops hs hm p' outs h
  exact ⟨⟨this.1, this.2.1, this.2.2.1⟩, this.2.2.2⟩

/-- C105 for every state the filter can reach: turning it about gravity turns all that follows. -/
theorem C105_reached (p : BProc ℝ T) (na ng nwa nwg : ℝ) (h1 : 0 ≤ na) (h2 : 0 ≤ ng) (h3 : 0 ≤ nwa) (h4 : 0 ≤ nwg) (st : Motion ℝ) (ba bg : Vec3 ℝ)
    (hq : p.b.u.q = { PropQueue.init st with Q := PropQueue.noiseMatrix na ng nwa nwg, biasA := ba, biasG := bg }) (hf : p.b.u.w.frm.frames = []) (hst : p.b.status = .needInit)
    (ha : p.b.att.items ≠ []) (hu : ∀ i ∈ p.b.att.items, i.q.sqNorm = 1) (he : ∀ e ∈ p.b.u.w.frm.extrinsics, e.q.sqNorm = 1)
    (hN : (p.b.u.w.frm.extrinsics.length + (max 1 p.b.u.w.frm.maxWindowSize + 1)) * 6 < two32) (ops : List (BOp ℝ T)) (hs : GoodSolvers ops)
    (hm : ∀ env, .run env ∈ ops → env.ext.ReadsMatrix) (p' : BProc ℝ T) (outs : List (BOut ℝ T)) (h : p.run ops = .ok (p', outs))
    {r : Quat ℝ} (hr : r.sqNorm = 1) (hg : r.rotate p'.g = p'.g) (later later' : List (BOp ℝ T))
    (hl : List.Forall₂ (OpSame (EnvTurned r p.b.u.w.frm.extrinsics.length)) later later') (hs' : GoodSolvers later) :
    Both (fun x y => List.Forall₂ (OutTurned r) x.2 y.2) (p'.run later) ((⟨p'.statics, p'.g, p'.b.turned r⟩ : BProc ℝ T).run later') := by
  obtain ⟨⟨ho, hcl, h3'⟩, -⟩ := C106_unit p na ng nwa nwg h1 h2 h3 h4 st ba bg hq hf hst ha hu he hN ops hs hm p' outs h
  have hc := covOk_run _ _ hN ops p p' outs hs (covOk_start p.b na ng nwa nwg h1 h2 h3 h4 st ba bg hq hf hst) h
  have hn := hc.cams
  rw [← hn] at hc hN hl
  exact C105_heading hr p' hg hN ho hc hcl h3' later later' hl hs'

/-- C106: an IMU sample that starts the attitude filter starts it with a unit quaternion. -/
theorem C106_first_sample (g a w : Vec3 ℝ) (t : T) (att : Att ℝ T) (h : att.items = []) (hs : (att.propagate g a w t).2 = true) :
    (att.propagate g a w t).1.items ≠ [] ∧ ∀ i ∈ (att.propagate g a w t).1.items, i.q.sqNorm = 1 := by
  unfold Att.propagate at hs ⊢
  rw [h] at hs ⊢
  simp only [List.getLast?_nil] at hs ⊢
  split at hs
  · exact absurd hs Bool.false_ne_true
  · rename_i hc
    rw [if_neg hc]
    refine ⟨List.cons_ne_nil _ _, fun i hi => ?_⟩
    rcases List.mem_cons.1 hi with rfl | hi
    · exact Att.initQuat_unit _ _
    · cases hi

/-! ### A concrete case -/

theorem exTrue_covOk : CovOk 2 1 exTrue := by
  obtain ⟨f, hf, -⟩ := exTrue_frames
  refine ⟨propagate_cov ({ exReal.u.q with initState := ⟨0, ⟨1, 0, 0⟩, .one⟩ } : PropQueue ℝ ℝ) 1 ⟨0, 0, 10⟩ ⟨0, 0, 10⟩ 0 0
      ⟨⟨rfl, rfl, rfl, rfl, rfl, noiseMatrix_psd 1 2 3 4 (by norm_num) (by norm_num) (by norm_num) (by norm_num)⟩, rfl, fun i hi => absurd hi List.not_mem_nil⟩,
    ⟨rfl, by rw [hf]; exact le_max_left 1 2⟩, rfl, fun _ => ⟨List.cons_ne_nil _ _, ?_⟩⟩
  rw [hf]
  exact (Update.propagate_qdims ({ exReal.u.q with initState := ⟨0, ⟨1, 0, 0⟩, .one⟩ } : PropQueue ℝ ℝ) 1 12 ⟨0, 0, 10⟩ ⟨0, 0, 10⟩ 0 0 (.inl ⟨rfl, rfl⟩)).ex

theorem exTrue_oriented : Oriented exTrue := by
  obtain ⟨f, hf, -, hq, -⟩ := exTrue_frames
  refine ⟨List.cons_ne_nil _ _, ?_, ?_, ?_, .inl ⟨by rw [hf]; exact List.cons_ne_nil _ _, ?_⟩⟩
  · intro i hi
    rcases List.mem_cons.1 hi with rfl | h
    · exact one_unit
    · cases h
  · intro i hi
    rcases List.mem_cons.1 hi with rfl | h
    · exact one_unit
    · cases h
  · intro e he
    have he : e ∈ [(⟨.one, 0⟩ : Extrinsic ℝ)] := he
    obtain rfl : e = ⟨.one, 0⟩ := by simpa using he
    exact one_unit
  · intro f' hf'
    rw [hf] at hf'
    obtain rfl : f' = f := by simpa using hf'
    rw [hq]
    exact one_unit

/-- C105: the filter `exTrue`, which moves along x, and its quarter turn about gravity, which moves along y, take an IMU sample and an image with libraries that keep their promises; all calls
return and the published states are turned. -/
example : ∃ (r : Quat ℝ) (env env' : Env ℝ) (x y : BProc ℝ ℝ × List (BOut ℝ ℝ)), r.rotate ⟨1, 0, 0⟩ = ⟨0, 1, 0⟩ ∧ env.ext.Correct ∧ env'.ext.Correct ∧
    (⟨{}, ⟨0, 0, 10⟩, exTrue⟩ : BProc ℝ ℝ).run [.run env, .publishUpdate, .publishPropagate] = .ok x ∧
    (⟨{}, ⟨0, 0, 10⟩, exTrue.turned r⟩ : BProc ℝ ℝ).run [.run env', .publishUpdate, .publishPropagate] = .ok y ∧ List.Forall₂ (OutTurned r) x.2 y.2 := by
  have h2 : Real.sqrt 2 * Real.sqrt 2 = 2 := Real.mul_self_sqrt (by norm_num)
  let r : Quat ℝ := ⟨Real.sqrt 2 / 2, 0, 0, Real.sqrt 2 / 2⟩
  have hr : r.sqNorm = 1 := by
    show Real.sqrt 2 / 2 * (Real.sqrt 2 / 2) + 0 * 0 + 0 * 0 + Real.sqrt 2 / 2 * (Real.sqrt 2 / 2) = 1
    linear_combination (1 / 2) * h2
  have hg : r.rotate ⟨0, 0, 10⟩ = ⟨0, 0, 10⟩ := by
    apply Vec3.ext <;> simp [r, Quat.rotate, Quat.vec]
  obtain ⟨ext, hc, hm⟩ := exists_correct
  let env : Env ℝ := ⟨ext, id, id, fun _ _ => 0⟩
  have hsafe := safe_run 1 2 20 ⟨by decide, by decide, by decide⟩ [.run env, .publishUpdate, .publishPropagate] (⟨{}, ⟨0, 0, 10⟩, exTrue⟩ : BProc ℝ ℝ) _ exTrue_stable
    (by show (((0 : ℚ) : ℝ)) ≤ 1 / 10; norm_num) (by show (1 / 10 : ℝ) * ((55 / 100 : ℚ) : ℝ) ≤ 1 / 10; norm_num)
    ⟨exTrue_callOk env, fun p1 o _ => ⟨trivial, fun p2 o _ => ⟨trivial, fun _ _ _ => trivial⟩⟩⟩
  obtain ⟨p', outs, h, -⟩ := hsafe
  have hmem : ∀ env', .run env' ∈ ([.run env, .publishUpdate, .publishPropagate] : List (BOp ℝ ℝ)) → env' = env := by intro env' h; simpa using h
  have key := C105_heading hr (⟨{}, ⟨0, 0, 10⟩, exTrue⟩ : BProc ℝ ℝ) hg (N := 2) (by decide) exTrue_oriented exTrue_covOk ?_ ?_ _ _
    (turnOp_same hr 1 [.run env, .publishUpdate, .publishPropagate] (fun e he => by rw [hmem e he]; exact hm)) (fun e he => by rw [hmem e he]; exact hc.good)
  · rw [h] at key
    revert key
    cases hy : (⟨{}, ⟨0, 0, 10⟩, exTrue.turned r⟩ : BProc ℝ ℝ).run ([BOp.run env, .publishUpdate, .publishPropagate].map (turnOp r 1)) with
    | ub t => intro key; exact key.elim
    | ok y =>
      intro key
      refine ⟨r, env, _, (p', outs), y, ?_, hc, turned_correct hr 1 hc, h, hy, key⟩
      apply Vec3.ext <;> simp [r, Quat.rotate, Quat.vec] <;> first | linear_combination (1 / 2) * h2 | linear_combination (-1 / 2) * h2
  · exact clean_step 1 { exReal.u.q with initState := ⟨0, ⟨1, 0, 0⟩, .one⟩ } (.sample ⟨0, 0, 10⟩ ⟨0, 0, 10⟩ 0 0) ⟨fun _ _ _ _ => rfl, fun _ _ => rfl⟩
  · rfl

end Backend
end Vio
