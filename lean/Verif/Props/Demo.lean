/-
Properties C96 - C99: the demo program.
-/
import Verif.Spec.Demo
import Verif.Spec.Exact
import Verif.Props.Safety
import Verif.Props.Config
import Verif.Props.Rotation

set_option linter.unusedSectionVars false

namespace Vio
open ConfSpec DemoSpec

variable {K T : Type} [Add K] [Sub K] [Mul K] [Neg K] [Div K] [Zero K] [One K] [ScalarFn K]
  [TimeOps T] [TimeCast T K]

namespace Demo

/-! ### Reading -/

theorem readVars_nums {α : Type} (get : List Char → α × Bool × List Char) (vs : List α) : ∀ (text : List Char) (good : Bool) (xs : List (Option α)),
    Nums get text vs → (vs ≠ [] → good = true) → xs.length = vs.length → readVars get ⟨text, good⟩ xs = vs.map some := by
  induction vs with
  | nil =>
    intro text good xs _ _ hl
    rw [List.length_nil, List.length_eq_zero_iff] at hl
    subst hl
    rfl
  | cons v vs ih =>
    intro text good xs h hg hl
    obtain ⟨x, xs, rfl⟩ := List.exists_cons_of_length_eq_add_one hl
    cases h with
    | cons _ rest _ _ hne hget h =>
      have e : readVar get ⟨text, good⟩ x = (some v, ⟨rest, !rest.isEmpty⟩) := by
        unfold readVar
        rw [hg (by simp)]
        simp only [Bool.not_true, Bool.false_eq_true, if_false]
        rw [if_neg (by simpa using hne), hget]
        rfl
      rw [readVars, e]
      dsimp only
      rw [ih rest _ xs h ?_ (by simpa using hl)]
      · rfl
      · intro hv
        cases h with
        | nil => exact absurd rfl hv
        | cons _ _ _ _ hne' _ _ =>
          cases rest with
          | nil => simp at hne'
          | cons _ _ => rfl

theorem read_timed (lib : DemoLib K T) (x : Vars K T) (line : List Char) (r : T × List K) (h : Timed lib line r) (hl : x.v.length = r.2.length) :
    x.read lib line = ⟨some r.1, r.2.map some⟩ := by
  obtain ⟨t, vs⟩ := r
  obtain ⟨hne, rest, hget, hn⟩ := h
  have e : readVar lib.timeGet ⟨line, true⟩ x.ts = (some t, ⟨rest, !rest.isEmpty⟩) := by
    unfold readVar
    simp only [Bool.not_true, Bool.false_eq_true, if_false]
    rw [if_neg (by simpa using hne), hget]
    rfl
  unfold Vars.read
  dsimp only
  rw [e]
  dsimp only
  rw [readVars_nums _ _ _ _ _ hn ?_ hl]
  intro hv
  cases hn with
  | nil => exact absurd rfl hv
  | cons _ _ _ _ hne' _ _ =>
    cases rest with
    | nil => simp at hne'
    | cons _ _ => rfl

theorem readVars_bad {α : Type} (get : List Char → α × Bool × List Char) (xs : List (Option α)) : ∀ text, readVars get ⟨text, false⟩ xs = xs := by
  induction xs with
  | nil => intro text; rfl
  | cons x xs ih =>
    intro text
    rw [readVars, show readVar get ⟨text, false⟩ x = (x, ⟨text, false⟩) from rfl, ih]

theorem readVars_short {α : Type} (get : List Char → α × Bool × List Char) (vs : List α) : ∀ (text : List Char) (good : Bool) (xs : List (Option α)),
    OnlyNums get text vs → (vs ≠ [] → good = true) → vs.length ≤ xs.length → readVars get ⟨text, good⟩ xs = vs.map some ++ xs.drop vs.length := by
  induction vs with
  | nil =>
    intro text good xs h _ _
    cases h with
    | nil _ hd =>
      cases xs with
      | nil => rfl
      | cons x xs =>
        cases good with
        | false => rw [readVars_bad]; rfl
        | true =>
          have e : readVar get ⟨text, true⟩ x = (x, ⟨[], false⟩) := by
            unfold readVar
            simp only [Bool.not_true, Bool.false_eq_true, if_false]
            rw [if_pos (by simpa using hd)]
          rw [readVars, e, readVars_bad]
          rfl
  | cons v vs ih =>
    intro text good xs h hg hl
    obtain ⟨x, xs, rfl⟩ : ∃ x ys, xs = x :: ys := by
      cases xs with
      | nil => simp at hl
      | cons x ys => exact ⟨x, ys, rfl⟩
    cases h with
    | cons _ rest _ _ hne hget h =>
      have e : readVar get ⟨text, good⟩ x = (some v, ⟨rest, !rest.isEmpty⟩) := by
        unfold readVar
        rw [hg (by simp)]
        simp only [Bool.not_true, Bool.false_eq_true, if_false]
        rw [if_neg (by simpa using hne), hget]
        rfl
      rw [readVars, e]
      dsimp only
      rw [ih rest _ xs h ?_ (by simpa using hl)]
      · rfl
      · intro hv
        cases h with
        | nil => exact absurd rfl hv
        | cons _ _ _ _ hne' _ _ =>
          cases rest with
          | nil => simp at hne'
          | cons _ _ => rfl

/-- C96, incomplete lines: the numbers that a line lacks keep the values of the line before. -/
theorem C96_short_line (lib : DemoLib K T) (x : Vars K T) (line rest : List Char) (t : T) (vs : List K) (hne : line.dropWhile isSpace ≠ [])
    (hget : lib.timeGet (line.dropWhile isSpace) = (t, true, rest)) (hn : OnlyNums lib.conf.numGet rest vs) (hl : vs.length ≤ x.v.length) :
    x.read lib line = ⟨some t, vs.map some ++ x.v.drop vs.length⟩ := by
  have e : readVar lib.timeGet ⟨line, true⟩ x.ts = (some t, ⟨rest, !rest.isEmpty⟩) := by
    unfold readVar
    simp only [Bool.not_true, Bool.false_eq_true, if_false]
    rw [if_neg (by simpa using hne), hget]
    rfl
  unfold Vars.read
  dsimp only
  rw [e]
  dsimp only
  rw [readVars_short _ _ _ _ _ hn ?_ hl]
  intro hv
  cases hn with
  | nil => exact absurd rfl hv
  | cons _ _ _ _ hne' _ _ =>
    cases rest with
    | nil => simp at hne'
    | cons _ _ => rfl

theorem run_append (a b : List (BOp K T)) : ∀ (p q r : BProc K T) (o1 o2 : List (BOut K T)), p.run a = .ok (q, o1) → q.run b = .ok (r, o2) → p.run (a ++ b) = .ok (r, o1 ++ o2) := by
  induction a with
  | nil => intro p q r o1 o2 h1 h2; cases h1; exact h2
  | cons op a ih =>
    intro p q r o1 o2 h1 h2
    rw [BProc.run] at h1
    obtain ⟨⟨p1, o⟩, hs, h1⟩ := Res.bind_eq_ok.1 h1
    obtain ⟨⟨p2, os⟩, hr, h1⟩ := Res.bind_eq_ok.1 h1
    cases h1
    rw [List.cons_append, BProc.run, hs, Res.bind_ok]
    dsimp only
    rw [ih _ _ _ _ _ hr h2, Res.bind_ok]
    rfl

/-- The raw time that the loader turns into one above the limit. -/
def late (limit offset : T) (ts : T) : Bool := TimeOps.lt limit (TimeOps.sub ts offset)

/-- C96.  An IMU file in which every line is complete: the messages pushed are those of the lines, in order, up to the first whose shifted time exceeds the limit, and their number is counted. -/
theorem loadImu_rows (lib : DemoLib K T) (limit : T) (tail : List (List Char)) (ht : tail = [] ∨ ∃ t, tail = [] :: t) (ls : List (List Char)) :
    ∀ (rows : List (T × Vec3 K × Vec3 K)) (p : BProc K T) (x : Vars K T) (cnt : Nat), TimeOps.isNaN p.b.loader.offset = false → x.v.length = 13 → cnt < two32 →
      List.Forall₂ (fun l a => l ≠ [] ∧ ∃ r, Timed lib l r ∧ IsImuRow r a) ls rows →
      ∃ p' outs, p.run ((throughFirst (fun m => late limit p.b.loader.offset m.ts) (rows.map imuOf)).map .imu) = .ok (p', outs) ∧
        loadImu lib limit p x cnt (ls ++ tail) = .ok (p', (cnt + (throughFirst (fun m => late limit p.b.loader.offset m.ts) (rows.map (imuOf (K := K)))).length) % two32) ∧
        p'.b.u = p.b.u ∧ p'.b.loader.offset = p.b.loader.offset ∧ p'.b.loader.featMeas = p.b.loader.featMeas := by
  induction ls with
  | nil =>
    intro rows p x cnt hn _ hc h
    cases h
    refine ⟨p, [], rfl, ?_, rfl, rfl, rfl⟩
    have e : loadImu lib limit p x cnt tail = .ok (p, cnt) := by
      rcases ht with rfl | ⟨t, rfl⟩
      · rfl
      · rfl
    rw [List.nil_append, e]
    show _ = Res.ok (p, (cnt + 0) % two32)
    rw [Nat.add_zero, Nat.mod_eq_of_lt hc]
  | cons l ls ih =>
    intro rows p x cnt hn hx hc h
    cases h with
    | @cons _ a _ rows ha h =>
      obtain ⟨hl, r, hr, hr1, q0, q1, q2, q3, y0, y1, y2, hr2⟩ := ha
      have hread := read_timed lib x l r hr (by rw [hx, hr2]; rfl)
      have hm : imuMsg (x.read lib l) = .ok (imuOf a) := by
        rw [hread, hr2, ← hr1.symm]
        rfl
      obtain ⟨p1, hp1⟩ : ∃ p1, p1 = (⟨(p.b.loader.pushImu p.statics (imuOf a)).statics, p.g, { p.b with loader := (p.b.loader.pushImu p.statics (imuOf a)).loader }⟩ : BProc K T) := ⟨_, rfl⟩
      have hs : p.step (.imu (imuOf a)) = .ok (p1, .ret true) := by rw [hp1]; rfl
      have hoff : p1.b.loader.offset = p.b.loader.offset := by
        rw [hp1]
        show (if TimeOps.isNaN p.b.loader.offset = true then _ else _) = _
        rw [if_neg (by rw [hn]; decide)]
      have hts : (p.b.loader.pushImu p.statics (imuOf a)).msg.ts = TimeOps.sub a.1 p.b.loader.offset := by
        show TimeOps.sub a.1 (if TimeOps.isNaN p.b.loader.offset = true then _ else _) = _
        rw [if_neg (by rw [hn]; decide)]
      have hu : p1.b.u = p.b.u := by rw [hp1]
      have hfm : p1.b.loader.featMeas = p.b.loader.featMeas := by rw [hp1]; rfl
      have hadd : add32 cnt 1 = (cnt + 1) % two32 := rfl
      have hlt : add32 cnt 1 < two32 := Nat.mod_lt _ (by decide)
      have hstep : loadImu lib limit p x cnt (l :: ls ++ tail) =
          if late limit p.b.loader.offset a.1 then .ok (p1, add32 cnt 1) else loadImu lib limit p1 (x.read lib l) (add32 cnt 1) (ls ++ tail) := by
        rw [List.cons_append, loadImu, if_neg (by simpa using hl)]
        dsimp only
        rw [hm, Res.bind_ok, hs, Res.bind_ok, hts]
        rfl
      rw [hstep]
      by_cases hlate : late limit p.b.loader.offset a.1 = true
      · have e : throughFirst (fun m => late limit p.b.loader.offset m.ts) ((a :: rows).map (imuOf (K := K))) = [imuOf a] := by
          rw [List.map_cons, throughFirst, if_pos (by exact hlate)]
        rw [e, if_pos hlate]
        refine ⟨p1, [.ret true], ?_, rfl, hu, hoff, hfm⟩
        show p.run [.imu (imuOf a)] = _
        rw [BProc.run, hs, Res.bind_ok]
        rfl
      · have e : throughFirst (fun m => late limit p.b.loader.offset m.ts) ((a :: rows).map (imuOf (K := K))) =
            imuOf a :: throughFirst (fun m => late limit p.b.loader.offset m.ts) (rows.map (imuOf (K := K))) := by
          rw [List.map_cons, throughFirst, if_neg (by exact hlate)]
        rw [e, if_neg hlate]
        obtain ⟨p', outs, h1, h2, h3, h4, h5⟩ := ih rows p1 (x.read lib l) (add32 cnt 1) (by rw [hoff]; exact hn) (by rw [hread, hr2]; rfl) hlt h
        rw [hoff] at h1 h2
        refine ⟨p', .ret true :: outs, ?_, ?_, h3.trans hu, h4.trans hoff, h5.trans hfm⟩
        · rw [List.map_cons, BProc.run, hs, Res.bind_ok]
          dsimp only
          rw [h1, Res.bind_ok]
        · rw [h2, hadd, List.length_cons]
          congr 2
          rw [Nat.mod_add_mod]
          congr 1
          omega

/-- The message of a camera row. -/
def camMsg (points : List (Vec3 K)) (a : T × Quat K × Vec3 K) : FeatMsg K T :=
  ⟨List.range points.length, points.map (fun y => ⟨[(0, project a.2.1 a.2.2 y),
    (1, project ((bodyPose a.2.1 a.2.2).1.mul qbc) ((bodyPose a.2.1 a.2.2).1.rotate pbc1 + (bodyPose a.2.1 a.2.2).2) y)]⟩), a.1⟩

theorem make_eq (points : List (Vec3 K)) (a : T × Quat K × Vec3 K) : FeatMsg.make (camMsg points a).ids (camMsg points a).observes a.1 = camMsg points a := by
  unfold FeatMsg.make
  rw [if_neg (by simp [camMsg])]
  rfl

theorem loadPoints_rows (lib : DemoLib K T) (tail : List (List Char)) (ht : tail = [] ∨ ∃ t, tail = [] :: t) (ls : List (List Char)) : ∀ (points : List (Vec3 K)) (v : List (Option K)),
    v.length = 3 → List.Forall₂ (fun l x => l ≠ [] ∧ Point lib l x) ls points → loadPoints lib v (ls ++ tail) = .ok points := by
  induction ls with
  | nil =>
    intro points v _ h
    cases h
    rcases ht with rfl | ⟨t, rfl⟩ <;> rfl
  | cons l ls ih =>
    intro points v hv h
    cases h with
    | @cons _ a _ points ha h =>
      obtain ⟨hl, hp⟩ := ha
      have e : readVars lib.conf.numGet ⟨l, true⟩ v = [some a.x, some a.y, some a.z] := readVars_nums _ _ _ _ _ hp (fun _ => rfl) (by rw [hv]; rfl)
      rw [List.cons_append, loadPoints, if_neg (by simpa using hl)]
      dsimp only
      rw [e, ih points _ rfl h]
      rfl

theorem loadCam_rows (lib : DemoLib K T) (limit : T) (points : List (Vec3 K)) (tail : List (List Char)) (ht : tail = [] ∨ ∃ t, tail = [] :: t) (ls : List (List Char)) :
    ∀ (rows : List (T × Quat K × Vec3 K)) (p : BProc K T) (x : Vars K T), TimeOps.isNaN p.b.loader.offset = false → x.v.length = 7 →
      List.Forall₂ (fun l a => l ≠ [] ∧ ∃ r, Timed lib l r ∧ IsCamRow r a) ls rows →
      ∃ p' outs, p.run ((throughFirst (fun m => late limit p.b.loader.offset m.ts) (rows.map (camMsg points))).map .feat) = .ok (p', outs) ∧
        loadCam lib limit points p x (ls ++ tail) = .ok p' := by
  induction ls with
  | nil =>
    intro rows p x hn _ h
    cases h
    refine ⟨p, [], rfl, ?_⟩
    rcases ht with rfl | ⟨t, rfl⟩ <;> rfl
  | cons l ls ih =>
    intro rows p x hn hx h
    cases h with
    | @cons _ a _ rows ha h =>
      obtain ⟨hl, r, hr, hr1, hr2⟩ := ha
      have hread := read_timed lib x l r hr (by rw [hx, hr2]; rfl)
      have hm : featMsg points (x.read lib l) = .ok (camMsg points a) := by
        rw [hread, hr2, hr1, ← make_eq points a]
        rfl
      have hlen : ¬ (camMsg points a).ids.length ≠ (camMsg points a).observes.length := by simp [camMsg]
      obtain ⟨p1, hp1⟩ : ∃ p1, p1 = (⟨(p.b.loader.pushFeatures p.statics (camMsg points a)).statics, p.g,
        { p.b with loader := (p.b.loader.pushFeatures p.statics (camMsg points a)).loader }⟩ : BProc K T) := ⟨_, rfl⟩
      have hs : p.step (.feat (camMsg points a)) = .ok (p1, .ret true) := by rw [hp1]; rfl
      have hoff : p1.b.loader.offset = p.b.loader.offset := by
        rw [hp1]
        show (p.b.loader.pushFeatures p.statics (camMsg points a)).loader.offset = _
        unfold Loader.pushFeatures
        rw [if_neg hlen]
        show (if TimeOps.isNaN p.b.loader.offset = true then _ else _) = _
        rw [if_neg (by rw [hn]; decide)]
      have hts : (p.b.loader.pushFeatures p.statics (camMsg points a)).msg.ts = TimeOps.sub a.1 p.b.loader.offset := by
        unfold Loader.pushFeatures
        rw [if_neg hlen]
        show TimeOps.sub a.1 (if TimeOps.isNaN p.b.loader.offset = true then _ else _) = _
        rw [if_neg (by rw [hn]; decide)]
      have hstep : loadCam lib limit points p x (l :: ls ++ tail) =
          if late limit p.b.loader.offset a.1 then .ok p1 else loadCam lib limit points p1 (x.read lib l) (ls ++ tail) := by
        rw [List.cons_append, loadCam, if_neg (by simpa using hl)]
        dsimp only
        rw [hm, Res.bind_ok, hs, Res.bind_ok, hts]
        rfl
      rw [hstep]
      by_cases hlate : late limit p.b.loader.offset a.1 = true
      · have e : throughFirst (fun m => late limit p.b.loader.offset m.ts) ((a :: rows).map (camMsg points)) = [camMsg points a] := by
          rw [List.map_cons, throughFirst, if_pos (by exact hlate)]
        rw [e, if_pos hlate]
        refine ⟨p1, [.ret true], ?_, rfl⟩
        show p.run [.feat (camMsg points a)] = _
        rw [BProc.run, hs, Res.bind_ok]
        rfl
      · have e : throughFirst (fun m => late limit p.b.loader.offset m.ts) ((a :: rows).map (camMsg points)) =
            camMsg points a :: throughFirst (fun m => late limit p.b.loader.offset m.ts) (rows.map (camMsg points)) := by
          rw [List.map_cons, throughFirst, if_neg (by exact hlate)]
        rw [e, if_neg hlate]
        obtain ⟨p', outs, h1, h2⟩ := ih rows p1 (x.read lib l) (by rw [hoff]; exact hn) (by rw [hread, hr2]; rfl) h
        rw [hoff] at h1
        refine ⟨p', .ret true :: outs, ?_, h2⟩
        rw [List.map_cons, BProc.run, hs, Res.bind_ok]
        dsimp only
        rw [h1, Res.bind_ok]

/-- What C96 asks of the three files. -/
structure Files (lib : DemoLib K T) (fs : String → Option (List Char)) (sim : String) (imus : List (T × Vec3 K × Vec3 K)) (points : List (Vec3 K)) (cams : List (T × Quat K × Vec3 K)) : Prop where
  imu : ∃ cs, fs (sim ++ "imu_pose_noise.txt") = some cs ∧ Lines (fun l a => ∃ r, Timed lib l r ∧ IsImuRow r a) cs imus
  point : ∃ cs, fs (sim ++ "all_points.txt") = some cs ∧ Lines (Point lib) cs points
  cam : ∃ cs, fs (sim ++ "cam_pose.txt") = some cs ∧ Lines (fun l a => ∃ r, Timed lib l r ∧ IsCamRow r a) cs cams

/-- The IMU messages that are pushed. -/
def imuOps (limit offset : T) (imus : List (T × Vec3 K × Vec3 K)) : List (BOp K T) := (throughFirst (fun m => late limit offset m.ts) (imus.map imuOf)).map .imu

/-- The features messages that are pushed. -/
def camOps (limit offset : T) (points : List (Vec3 K)) (cams : List (T × Quat K × Vec3 K)) : List (BOp K T) :=
  (throughFirst (fun m => late limit offset m.ts) (cams.map (camMsg points))).map .feat

/-- C96: complete files are pushed message by message, each up to and including the first whose shifted time exceeds the limit. -/
theorem C96_messages (lib : DemoLib K T) (limit : T) (fs : String → Option (List Char)) (sim : String) (p : BProc K T) (imus : List (T × Vec3 K × Vec3 K)) (points : List (Vec3 K))
    (cams : List (T × Quat K × Vec3 K)) (hn : TimeOps.isNaN p.b.loader.offset = false) (hf : Files lib fs sim imus points cams) :
    ∃ p1 p2 outs, loadIMUData lib limit fs sim p = .ok (p1, (imuOps (K := K) limit p.b.loader.offset imus).length % two32) ∧ loadFeaturesData lib limit fs sim p1 = .ok p2 ∧
      p.run (imuOps limit p.b.loader.offset imus ++ camOps limit p.b.loader.offset points cams) = .ok (p2, outs) := by
  obtain ⟨⟨c1, h1, ls1, t1, e1, ht1, hr1⟩, ⟨c2, h2, ls2, t2, e2, ht2, hr2⟩, ⟨c3, h3, ls3, t3, e3, ht3, hr3⟩⟩ := hf
  obtain ⟨p1, o1, r1, l1, -, hoff, -⟩ := loadImu_rows lib limit t1 ht1 ls1 imus p ⟨none, List.replicate 13 none⟩ 0 hn rfl (by decide) hr1
  obtain ⟨p2, o2, r2, l2⟩ := loadCam_rows lib limit points t3 ht3 ls3 cams p1 ⟨none, List.replicate 7 none⟩ (by rw [hoff]; exact hn) rfl hr3
  refine ⟨p1, p2, o1 ++ o2, ?_, ?_, run_append _ _ _ _ _ _ _ r1 (by rw [hoff] at r2; exact r2)⟩
  · unfold loadIMUData
    rw [h1]
    dsimp only
    rw [e1, l1, imuOps, List.length_map, Nat.zero_add]
  · unfold loadFeaturesData
    rw [h2]
    dsimp only
    rw [e2, loadPoints_rows lib t2 ht2 ls2 points _ rfl hr2, Res.bind_ok, h3]
    dsimp only
    rw [e3, l2]

/-! ### The main loop -/

/-- The published states that are kept: up to the first whose position is not a number or whose time lies before the one before. -/
def keep : Option T → List (Published K T) → List (Published K T)
  | _, [] => []
  | last, x :: xs => if ScalarFn.isNaN x.st.p.x || wentBack last x.ts then [] else x :: keep (some x.ts) xs

theorem mainLoop_saved (envs : Nat → Env K) (n : Nat) : ∀ (i : Nat) (p p' : BProc K T) (outs : List (BOut K T)) (last : Option T) (s : Saved K T), p.run (calls envs n i) = .ok (p', outs) →
    ∃ q, mainLoop envs n i p last s = .ok (q, (keep last (published outs)).foldl Saved.add s) := by
  induction n with
  | zero =>
    intro i p p' outs last s h
    cases h
    exact ⟨p, rfl⟩
  | succ n ih =>
    intro i p p' outs last s h
    rw [calls, BProc.run] at h
    obtain ⟨⟨p1, o1⟩, h1, h⟩ := Res.bind_eq_ok.1 h
    obtain ⟨⟨p2, o2⟩, h2, h⟩ := Res.bind_eq_ok.1 h
    cases h
    rw [BProc.run] at h2
    obtain ⟨⟨p3, o3⟩, h3, h2⟩ := Res.bind_eq_ok.1 h2
    obtain ⟨⟨p4, o4⟩, h4, h2⟩ := Res.bind_eq_ok.1 h2
    cases h2
    obtain ⟨b, rfl⟩ : ∃ b, o1 = .ret b := by
      obtain ⟨⟨b, q⟩, -, h1⟩ := Res.bind_eq_ok.1 h1
      cases h1
      exact ⟨b, rfl⟩
    obtain ⟨r, hr, h3⟩ := Res.bind_eq_ok.1 h3
    cases h3
    rw [mainLoop, h1, Res.bind_ok]
    dsimp only
    rw [hr, Res.bind_ok]
    cases r with
    | none => exact ih (i + 1) p1 _ o4 last s h4
    | some x =>
      change ∃ q, (if ScalarFn.isNaN x.st.p.x = true then _ else _) = Res.ok (q, (keep last (x :: published o4)).foldl Saved.add s)
      rw [keep]
      cases hx : ScalarFn.isNaN x.st.p.x with
      | true => exact ⟨p1, rfl⟩
      | false =>
        rw [if_neg (by decide)]
        cases hw : wentBack last x.ts with
        | true => exact ⟨p1, rfl⟩
        | false => exact ih (i + 1) p1 _ o4 (some x.ts) (s.add x) h4

theorem foldl_add (xs : List (Published K T)) : ∀ s : Saved K T, xs.foldl Saved.add s =
    ⟨s.ts ++ xs.map (·.ts), s.q ++ xs.map (·.st.q), s.p ++ xs.map (·.st.p), s.v ++ xs.map (·.st.v), s.ba ++ xs.map (·.biasA), s.bg ++ xs.map (·.biasG)⟩ := by
  induction xs with
  | nil => intro s; simp
  | cons x xs ih =>
    intro s
    rw [List.foldl_cons, ih]
    simp [Saved.add]

theorem idx_map {α β : Type} (f : α → β) (l : List α) (i : Nat) (a : α) (h : l[i]? = some a) : idx (l.map f) i = .ok (f a) := by
  unfold idx
  rw [List.getElem?_map, h]
  rfl

theorem rows_all (xs : List (Published K T)) (n : Nat) : ∀ i, i + n = xs.length → rows (xs.foldl Saved.add .empty) n i = .ok ((xs.drop i).map rowOf) := by
  induction n with
  | zero =>
    intro i h
    rw [List.drop_eq_nil_of_le (by omega)]
    rfl
  | succ n ih =>
    intro i h
    have hi : i < xs.length := by omega
    have hx : xs[i]? = some xs[i] := List.getElem?_eq_getElem hi
    have := ih (i + 1) (by omega)
    rw [rows, this, foldl_add]
    simp only [Saved.empty, List.nil_append]
    rw [idx_map _ _ _ _ hx, idx_map _ _ _ _ hx, idx_map _ _ _ _ hx, idx_map _ _ _ _ hx, idx_map _ _ _ _ hx, idx_map _ _ _ _ hx, List.drop_eq_getElem_cons hi]
    rfl

/-- C98: the output file of a run has one row for each state that is kept; the six vectors are always read inside their bounds. -/
theorem C98_rows (envs : Nat → Env K) (n : Nat) (p p' : BProc K T) (outs : List (BOut K T)) (h : p.run (calls envs n 0) = .ok (p', outs)) :
    ∃ q s, mainLoop envs n 0 p none .empty = .ok (q, s) ∧ savePose true s = .ok (some ((keep none (published outs)).map rowOf)) := by
  obtain ⟨q, hq⟩ := mainLoop_saved envs n 0 p p' outs none .empty h
  refine ⟨q, _, hq, ?_⟩
  unfold savePose
  have hl : (((keep none (published outs)).foldl Saved.add (Saved.empty : Saved K T)).ts).length = (keep none (published outs)).length := by
    rw [foldl_add]; simp [Saved.empty]
  rw [if_pos rfl, hl, rows_all _ _ 0 (by omega)]
  rfl

theorem run_split (a b : List (BOp K T)) : ∀ (p r : BProc K T) (o : List (BOut K T)), p.run (a ++ b) = .ok (r, o) →
    ∃ q o1 o2, p.run a = .ok (q, o1) ∧ q.run b = .ok (r, o2) ∧ o = o1 ++ o2 ∧ o1.length = a.length := by
  induction a with
  | nil => intro p r o h; exact ⟨p, [], o, rfl, h, rfl, rfl⟩
  | cons op a ih =>
    intro p r o h
    rw [List.cons_append, BProc.run] at h
    obtain ⟨⟨p1, o1⟩, hs, h⟩ := Res.bind_eq_ok.1 h
    obtain ⟨⟨p2, os⟩, hr, h⟩ := Res.bind_eq_ok.1 h
    cases h
    obtain ⟨q, a1, a2, h1, h2, rfl, h3⟩ := ih _ _ _ hr
    refine ⟨q, o1 :: a1, a2, ?_, h2, rfl, by simp [h3]⟩
    rw [BProc.run, hs, Res.bind_ok]
    dsimp only
    rw [h1, Res.bind_ok]

open Backend in
theorem pubTimes_calls (envs : Nat → Env K) (n : Nat) : ∀ (i : Nat) (p p' : BProc K T) (outs : List (BOut K T)), p.run (calls envs n i) = .ok (p', outs) →
    pubTimes (calls envs n i) outs = (published outs).map (·.ts) := by
  induction n with
  | zero => intro i p p' outs h; cases h; rfl
  | succ n ih =>
    intro i p p' outs h
    rw [calls, BProc.run] at h
    obtain ⟨⟨p1, o1⟩, h1, h⟩ := Res.bind_eq_ok.1 h
    obtain ⟨⟨p2, o2⟩, h2, h⟩ := Res.bind_eq_ok.1 h
    cases h
    rw [BProc.run] at h2
    obtain ⟨⟨p3, o3⟩, h3, h2⟩ := Res.bind_eq_ok.1 h2
    obtain ⟨⟨p4, o4⟩, h4, h2⟩ := Res.bind_eq_ok.1 h2
    cases h2
    obtain ⟨b, rfl⟩ : ∃ b, o1 = .ret b := by
      obtain ⟨⟨b, q⟩, -, h1⟩ := Res.bind_eq_ok.1 h1
      cases h1
      exact ⟨b, rfl⟩
    obtain ⟨r, hr, h3⟩ := Res.bind_eq_ok.1 h3
    cases h3
    have := ih (i + 1) _ _ _ h4
    cases r with
    | none => exact this
    | some x =>
      show x.ts :: pubTimes (calls envs n (i + 1)) o4 = x.ts :: (published o4).map (·.ts)
      rw [this]

/-- Calls that push. -/
def Pushes (ops : List (BOp K T)) : Prop := ∀ op ∈ ops, (∃ m, op = .imu m) ∨ ∃ m, op = .feat m

open Backend in
theorem pubTimes_pushes (ops b : List (BOp K T)) (h : Pushes ops) : ∀ (o1 o2 : List (BOut K T)), o1.length = ops.length → pubTimes (ops ++ b) (o1 ++ o2) = pubTimes b o2 := by
  induction ops with
  | nil => intro o1 o2 hl; rw [List.length_eq_zero_iff.1 hl]; rfl
  | cons op ops ih =>
    intro o1 o2 hl
    obtain ⟨o, o1, rfl⟩ := List.exists_cons_of_length_eq_add_one hl
    have := ih (fun x hx => h x (List.mem_cons_of_mem _ hx)) o1 o2 (by simpa using hl)
    rcases h op (List.mem_cons_self ..) with ⟨m, rfl⟩ | ⟨m, rfl⟩
    · cases o <;> exact this
    · cases o <;> exact this

open Backend in
theorem imuTimes_append (a b : List (BOp K T)) : imuTimes (a ++ b) = imuTimes a ++ imuTimes b := by
  induction a with
  | nil => rfl
  | cons op a ih => cases op <;> simp [imuTimes, ih]

open Backend in
theorem featMsgs_append (a b : List (BOp K T)) : featMsgs (a ++ b) = featMsgs a ++ featMsgs b := by
  induction a with
  | nil => rfl
  | cons op a ih => cases op <;> simp [featMsgs, ih]

open Backend in
theorem times_imu (l : List (ImuMsg K T)) : imuTimes (l.map (.imu : _ → BOp K T)) = l.map (·.ts) ∧ featMsgs (l.map (.imu : _ → BOp K T)) = [] := by
  induction l with
  | nil => exact ⟨rfl, rfl⟩
  | cons m l ih => exact ⟨by simp [imuTimes, ih.1], by simp [featMsgs, ih.2]⟩

open Backend in
theorem times_feat (l : List (FeatMsg K T)) : imuTimes (l.map (.feat : _ → BOp K T)) = [] ∧ featMsgs (l.map (.feat : _ → BOp K T)) = l := by
  induction l with
  | nil => exact ⟨rfl, rfl⟩
  | cons m l ih => exact ⟨by simp [imuTimes, ih.1], by simp [featMsgs, ih.2]⟩

open Backend in
theorem times_calls (envs : Nat → Env K) (n : Nat) : ∀ i, imuTimes (calls envs n i : List (BOp K T)) = [] ∧ featMsgs (calls envs n i : List (BOp K T)) = [] := by
  induction n with
  | zero => intro i; exact ⟨rfl, rfl⟩
  | succ n ih => intro i; exact ih (i + 1)

theorem throughFirst_prefix {α : Type} (stop : α → Bool) (l : List α) : throughFirst stop l <+: l := by
  induction l with
  | nil => exact List.prefix_refl _
  | cons a l ih =>
    rw [throughFirst]
    split
    · exact ⟨l, rfl⟩
    · exact (List.prefix_cons_inj a).2 ih

/-- All calls of the program. -/
def allOps (limit offset : T) (envs : Nat → Env K) (imus : List (T × Vec3 K × Vec3 K)) (points : List (Vec3 K)) (cams : List (T × Quat K × Vec3 K)) : List (BOp K T) :=
  (imuOps limit offset imus ++ camOps limit offset points cams) ++ calls envs ((imuOps (K := K) limit offset imus).length % two32) 0

theorem pushes_ops (limit offset : T) (imus : List (T × Vec3 K × Vec3 K)) (points : List (Vec3 K)) (cams : List (T × Quat K × Vec3 K)) :
    Pushes (imuOps limit offset imus ++ camOps limit offset points cams) := by
  intro op hop
  rcases List.mem_append.1 hop with h | h
  · obtain ⟨m, -, rfl⟩ := List.mem_map.1 h; exact .inl ⟨m, rfl⟩
  · obtain ⟨m, -, rfl⟩ := List.mem_map.1 h; exact .inr ⟨m, rfl⟩

/-- C96: the program makes these calls, and its result is decided by their results. -/
theorem C96_program (lib : DemoLib K T) (fs : String → Option (List Char)) (sim : String) (envs : Nat → Env K) (p p' : BProc K T) (imus : List (T × Vec3 K × Vec3 K)) (points : List (Vec3 K))
    (cams : List (T × Quat K × Vec3 K)) (outs : List (BOut K T)) (hn : TimeOps.isNaN p.b.loader.offset = false) (hf : Files lib fs sim imus points cams)
    (h : p.run (allOps (TimeOps.tlit 100) p.b.loader.offset envs imus points cams) = .ok (p', outs)) :
    ∃ q, work lib fs sim envs true p = .ok (q, some ((keep none (published outs)).map rowOf)) := by
  obtain ⟨p1, p2, o, h1, h2, h3⟩ := C96_messages lib (TimeOps.tlit 100) fs sim p imus points cams hn hf
  obtain ⟨q, o1, o2, h4, h5, rfl, h6⟩ := run_split _ _ _ _ _ h
  rw [h3] at h4
  cases h4
  have hp : ∀ (ops : List (BOp K T)) (o1 : List (BOut K T)) (p q : BProc K T), Pushes ops → p.run ops = .ok (q, o1) → published (o1 ++ o2) = published o2 := by
    intro ops
    induction ops with
    | nil => intro o1 p q _ h; cases h; rfl
    | cons op ops ih =>
      intro o1 p q hp h
      rw [BProc.run] at h
      obtain ⟨⟨p1, o⟩, hs, h⟩ := Res.bind_eq_ok.1 h
      obtain ⟨⟨p2, os⟩, hr, h⟩ := Res.bind_eq_ok.1 h
      cases h
      have := ih os p1 _ (fun x hx => hp x (List.mem_cons_of_mem _ hx)) hr
      rcases hp op (List.mem_cons_self ..) with ⟨m, rfl⟩ | ⟨m, rfl⟩
      · cases hs; exact this
      · cases hs; exact this
  rw [hp _ _ _ _ (pushes_ops _ _ _ _ _) h3]
  obtain ⟨q, s, h7, h8⟩ := C98_rows envs _ p2 p' o2 h5
  refine ⟨q, ?_⟩
  unfold work
  rw [h1, Res.bind_ok]
  dsimp only
  rw [h2, Res.bind_ok, h7, Res.bind_ok]
  dsimp only
  rw [h8]
  rfl

/-! ### Consumption -/

theorem pops_run (envs : Nat → Env K) (n : Nat) : ∀ (i : Nat) (p p' : BProc K T) (outs : List (BOut K T)), p.run (calls envs n i) = .ok (p', outs) → p'.b.loader = pops n p.b.loader := by
  induction n with
  | zero => intro i p p' outs h; cases h; rfl
  | succ n ih =>
    intro i p p' outs h
    rw [calls, BProc.run] at h
    obtain ⟨⟨p1, o1⟩, h1, h⟩ := Res.bind_eq_ok.1 h
    obtain ⟨⟨p2, o2⟩, h2, h⟩ := Res.bind_eq_ok.1 h
    cases h
    rw [BProc.run] at h2
    obtain ⟨⟨p3, o3⟩, h3, h2⟩ := Res.bind_eq_ok.1 h2
    obtain ⟨⟨p4, o4⟩, h4, h2⟩ := Res.bind_eq_ok.1 h2
    cases h2
    obtain ⟨r, hr, h3⟩ := Res.bind_eq_ok.1 h3
    cases h3
    obtain ⟨⟨b, q⟩, hq, h1⟩ := Res.bind_eq_ok.1 h1
    cases h1
    rw [ih _ _ _ _ h4, pops]
    exact congrArg _ (Backend.runOnce_loader _ _ _ _ _ hq)

theorem pops_imu (n : Nat) : ∀ l : Loader K T, l.imuMeas.length ≤ (pops n l).imuMeas.length + n := by
  induction n with
  | zero => intro l; simp [pops]
  | succ n ih =>
    intro l
    have h1 := ih l.popOne.loader
    have h2 : l.imuMeas.length ≤ l.popOne.loader.imuMeas.length + 1 := by
      unfold Loader.popOne
      split
      · split
        · split <;> simp_all
        · simp_all
      · simp_all
      · simp_all
      · simp_all
    rw [pops]
    omega

theorem pops_nothing (n : Nat) (l : Loader K T) (h1 : l.imuMeas = []) (h2 : l.featMeas = []) : pops n l = l := by
  induction n with
  | zero => rfl
  | succ n ih =>
    have e : l.popOne.loader = l := by
      unfold Loader.popOne
      rw [h1, h2]
    rw [pops, e]
    exact ih

/-- C99: as many calls as there are samples take everything out of the loader exactly when the images can be matched. -/
theorem drained_iff (imus : List (ImuMsg K T)) : ∀ l : Loader K T, l.imuMeas = imus →
    ((pops imus.length l).imuMeas = [] ∧ (pops imus.length l).featMeas = [] ↔ Covered l.imuPeriod imus l.featMeas) := by
  induction imus with
  | nil =>
    intro l hl
    show (l.imuMeas = [] ∧ l.featMeas = []) ↔ _
    cases hf : l.featMeas with
    | nil => simp [hl, Covered]
    | cons f fs =>
      simp only [Covered]
      constructor
      · rintro ⟨-, h⟩; cases h
      · rintro ⟨pre, m, post, h, -⟩; simp at h
  | cons i is ih =>
    intro l hl
    rw [List.length_cons, pops]
    cases hf : l.featMeas with
    | nil =>
      have e : l.popOne.loader = { l with imuMeas := is } := by unfold Loader.popOne; rw [hl, hf]
      rw [e]
      have := ih { l with imuMeas := is } rfl
      rw [this]
      dsimp only
      rw [hf]
      simp [Covered]
    | cons f fs =>
      by_cases h1 : TimeOps.le f.ts i.ts = true
      · by_cases h2 : TimeOps.lt (TimeOps.fabs (TimeOps.sub f.ts i.ts)) l.imuPeriod = true
        · have e : l.popOne.loader = { l with imuMeas := is, featMeas := fs } := by
            unfold Loader.popOne; rw [hl, hf]; dsimp only; rw [if_pos h1, if_pos h2]
          rw [e, ih { l with imuMeas := is, featMeas := fs } rfl]
          dsimp only
          rw [Covered]
          constructor
          · intro h; exact ⟨[], i, is, rfl, by simp, h1, h2, h⟩
          · rintro ⟨pre, m, post, h, h3, h4, h5, h6⟩
            cases pre with
            | nil => cases h; exact h6
            | cons x pre =>
              obtain ⟨rfl, -⟩ := List.cons.inj h
              exact absurd h1 (by rw [h3 i (List.mem_cons_self ..)]; decide)
        · have e : l.popOne.loader = { l with featMeas := fs } := by
            unfold Loader.popOne; rw [hl, hf]; dsimp only; rw [if_pos h1, if_neg h2]
          rw [e]
          constructor
          · rintro ⟨h, -⟩
            have := pops_imu is.length { l with featMeas := fs }
            rw [h] at this
            simp [hl] at this
          · rw [Covered]
            rintro ⟨pre, m, post, h, h3, h4, h5, h6⟩
            cases pre with
            | nil => cases h; exact absurd h5 h2
            | cons x pre =>
              obtain ⟨rfl, -⟩ := List.cons.inj h
              exact absurd h1 (by rw [h3 i (List.mem_cons_self ..)]; decide)
      · have e : l.popOne.loader = { l with imuMeas := is } := by
          unfold Loader.popOne; rw [hl, hf]; dsimp only; rw [if_neg h1]
        rw [e, ih { l with imuMeas := is } rfl]
        dsimp only
        rw [hf, Covered, Covered]
        constructor
        · rintro ⟨pre, m, post, rfl, h3, h4, h5, h6⟩
          refine ⟨i :: pre, m, post, rfl, ?_, h4, h5, h6⟩
          intro x hx
          rcases List.mem_cons.1 hx with rfl | hx
          · simpa using h1
          · exact h3 x hx
        · rintro ⟨pre, m, post, h, h3, h4, h5, h6⟩
          cases pre with
          | nil => cases h; exact absurd h4 h1
          | cons x pre =>
            obtain ⟨rfl, rfl⟩ := List.cons.inj h
            exact ⟨pre, m, post, rfl, fun y hy => h3 y (List.mem_cons_of_mem _ hy), h4, h5, h6⟩

/-- C99: the passes of the main loop, one per sample in the loader, leave nothing behind if and only if every image can be matched with a sample of its own: the first one that is not before it, less
than one period later.  Further passes find nothing. -/
theorem C99_drained (envs : Nat → Env K) (p p' : BProc K T) (outs : List (BOut K T)) (n i : Nat) (h : p.run (calls envs n i) = .ok (p', outs)) :
    (n = p.b.loader.imuMeas.length → (p'.b.loader.imuMeas = [] ∧ p'.b.loader.featMeas = [] ↔ Covered p.b.loader.imuPeriod p.b.loader.imuMeas p.b.loader.featMeas)) ∧
      (p.b.loader.imuMeas.length ≤ n → Covered p.b.loader.imuPeriod p.b.loader.imuMeas p.b.loader.featMeas → p'.b.loader.imuMeas = [] ∧ p'.b.loader.featMeas = []) := by
  have hl := pops_run envs n i p p' outs h
  have hd := drained_iff _ p.b.loader rfl
  constructor
  · rintro rfl
    rw [hl]
    exact hd
  · intro hn hc
    have hd := hd.2 hc
    have hadd : ∀ (a b : Nat) (l : Loader K T), pops (a + b) l = pops b (pops a l) := by
      intro a
      induction a with
      | zero => intro b l; rw [Nat.zero_add]; rfl
      | succ a ih => intro b l; rw [show a + 1 + b = a + b + 1 by omega, pops, pops, ih]
    obtain ⟨k, rfl⟩ := Nat.exists_eq_add_of_le hn
    rw [hl, hadd, pops_nothing k _ hd.1 hd.2]
    exact hd

section Ordered
variable [LinearOrder T] [TimeLaws T] [CastLaws T K]
open Backend

theorem keep_ordered (xs : List (Published K T)) : ∀ last : Option T, (∀ t ∈ last, ∀ x ∈ xs, t ≤ x.ts) → (xs.map (·.ts)).Pairwise (· ≤ ·) →
    keep last xs = xs.takeWhile (fun x => !ScalarFn.isNaN x.st.p.x) := by
  induction xs with
  | nil => intro last _ _; rfl
  | cons x xs ih =>
    intro last hl hp
    rw [List.map_cons, List.pairwise_cons] at hp
    have hw : wentBack last x.ts = false := by
      unfold wentBack
      cases last with
      | none => rfl
      | some t =>
        have := hl t rfl x (List.mem_cons_self ..)
        show TimeOps.lt x.ts t = false
        rw [← Bool.not_eq_true, TimeLaws.lt_iff]
        exact not_lt.2 this
    rw [keep, hw, List.takeWhile_cons]
    cases ScalarFn.isNaN x.st.p.x with
    | true => rfl
    | false =>
      rw [ih (some x.ts) ?_ hp.2]
      · rfl
      · intro t ht y hy
        cases ht
        exact hp.1 _ (List.mem_map_of_mem hy)

theorem camMsg_ok (nc : Nat) (hc : 2 ≤ nc) (points : List (Vec3 K)) (a : T × Quat K × Vec3 K) : MsgOk nc (camMsg points a) := by
  refine ⟨List.nodup_range, by simp [camMsg], ?_⟩
  intro o ho
  obtain ⟨y, -, rfl⟩ := List.mem_map.1 ho
  refine ⟨by simp, by simp, ?_⟩
  intro e he
  simp only [List.mem_cons, List.not_mem_nil, or_false] at he
  rcases he with rfl | rfl
  · show 0 < nc; omega
  · show 1 < nc; omega

/-- C97, partial as C68 is: with complete files and at least two configured cameras the program has defined behaviour. -/
theorem C97_defined_partial (lib : DemoLib K T) (fs : String → Option (List Char)) (sim : String) (envs : Nat → Env K) (p : BProc K T) (imus : List (T × Vec3 K × Vec3 K)) (points : List (Vec3 K))
    (cams : List (T × Quat K × Vec3 K)) (hn : TimeOps.isNaN p.b.loader.offset = false) (hs : Files lib fs sim imus points cams) (hi : cams.length + 1 < two32) (hf : Fresh p.b) (hr : Ready p.b)
    (hc : 2 ≤ p.b.u.w.frm.extrinsics.length) :
    ∃ p' outs q, p.run (allOps (TimeOps.tlit 100) p.b.loader.offset envs imus points cams) = .ok (p', outs) ∧
      work lib fs sim envs true p = .ok (q, some ((keep none (published outs)).map rowOf)) := by
  have hfm : featMsgs (allOps (TimeOps.tlit 100) p.b.loader.offset envs imus points cams) =
      throughFirst (fun m => late (TimeOps.tlit 100) p.b.loader.offset m.ts) (cams.map (camMsg points)) := by
    unfold allOps imuOps camOps
    rw [featMsgs_append, featMsgs_append, (times_imu _).2, (times_feat _).2, (times_calls _ _ _).2, List.nil_append, List.append_nil]
  have hpre := throughFirst_prefix (fun m => late (TimeOps.tlit 100) p.b.loader.offset m.ts) (cams.map (camMsg points))
  have hmem : ∀ m ∈ featMsgs (allOps (TimeOps.tlit 100) p.b.loader.offset envs imus points cams), ∃ a, m = camMsg points a := by
    intro m hm
    rw [hfm] at hm
    obtain ⟨a, -, rfl⟩ := List.mem_map.1 (hpre.subset hm)
    exact ⟨a, rfl⟩
  have hex : ∃ p' outs, p.run (allOps (TimeOps.tlit 100) p.b.loader.offset envs imus points cams) = .ok (p', outs) := by
    refine C68_tracker_partial p _ hf hr ?_ ?_ ?_ ?_
    · intro op hop e
      subst e
      rcases List.mem_append.1 hop with h | h
      · rcases pushes_ops _ _ _ _ _ _ h with ⟨m, hm⟩ | ⟨m, hm⟩ <;> cases hm
      · revert h
        generalize (imuOps (K := K) (TimeOps.tlit 100) p.b.loader.offset imus).length % two32 = n
        generalize 0 = i
        induction n generalizing i with
        | zero => intro h; cases h
        | succ n ih =>
          intro h
          rw [calls] at h
          simp only [List.mem_cons] at h
          rcases h with h | h | h
          · cases h
          · cases h
          · exact ih _ h
    · intro m hm
      obtain ⟨a, rfl⟩ := hmem m hm
      exact camMsg_ok _ hc points a
    · intro x y z hsub id hx hz
      have e : ∀ l ∈ [x, y, z], l = List.range points.length := by
        intro l hl
        obtain ⟨m, hm, rfl⟩ := List.mem_map.1 (hsub.subset hl)
        obtain ⟨a, rfl⟩ := hmem m hm
        rfl
      rw [e y (by simp), ← e x (by simp)]
      exact hx
    · rw [hfm]
      have := hpre.length_le
      rw [List.length_map] at this
      omega
  obtain ⟨p', outs, h⟩ := hex
  obtain ⟨q, hq⟩ := C96_program lib fs sim envs p p' imus points cams outs hn hs h
  exact ⟨p', outs, q, h, hq⟩

/-- C98: when the IMU times are ordered numbers, the file holds every published state, in order of time, up to the first whose position is not a number; the test for time running back never
fires. -/
theorem C98_file (lib : DemoLib K T) (fs : String → Option (List Char)) (sim : String) (envs : Nat → Env K) (p p' : BProc K T) (imus : List (T × Vec3 K × Vec3 K)) (points : List (Vec3 K))
    (cams : List (T × Quat K × Vec3 K)) (outs : List (BOut K T)) (hn : TimeOps.isNaN p.b.loader.offset = false) (hfiles : Files lib fs sim imus points cams) (hf : Fresh p.b)
    (hN : max 1 p.b.u.w.frm.maxWindowSize + 1 < two32) (ho : (imus.map (·.1)).Pairwise (· ≤ ·)) (hnan : ∀ a ∈ imus, TimeOps.isNaN a.1 = false)
    (h : p.run (allOps (TimeOps.tlit 100) p.b.loader.offset envs imus points cams) = .ok (p', outs)) :
    ((published outs).map (·.ts)).Pairwise (· ≤ ·) ∧
      ∃ q, work lib fs sim envs true p = .ok (q, some (((published outs).takeWhile (fun x => !ScalarFn.isNaN x.st.p.x)).map rowOf)) := by
  have hpre := throughFirst_prefix (fun m => late (TimeOps.tlit 100) p.b.loader.offset m.ts) (imus.map (imuOf (K := K)))
  have hit : imuTimes (allOps (TimeOps.tlit 100) p.b.loader.offset envs imus points cams) =
      (throughFirst (fun m => late (TimeOps.tlit 100) p.b.loader.offset m.ts) (imus.map (imuOf (K := K)))).map (·.ts) := by
    unfold allOps imuOps camOps
    rw [imuTimes_append, imuTimes_append, (times_imu _).1, (times_feat _).1, (times_calls _ _ _).1, List.append_nil, List.append_nil]
  have hmm : (imus.map (imuOf (K := K))).map (·.ts) = imus.map (·.1) := by rw [List.map_map]; rfl
  have h1 : (pubTimes (allOps (TimeOps.tlit 100) p.b.loader.offset envs imus points cams) outs).Pairwise (· ≤ ·) := by
    refine C79_published_time p p' _ outs hf hN ?_ ?_ h
    · rw [hit]
      refine List.Pairwise.sublist (hpre.sublist.map _) ?_
      rw [hmm]
      exact ho
    · intro t ht
      rw [hit] at ht
      have := (hpre.sublist.map _).subset ht
      rw [hmm] at this
      obtain ⟨a, ha, rfl⟩ := List.mem_map.1 this
      exact hnan a ha
  have hpub : pubTimes (allOps (TimeOps.tlit 100) p.b.loader.offset envs imus points cams) outs = (published outs).map (·.ts) := by
    obtain ⟨q, o1, o2, h4, h5, rfl, h6⟩ := run_split _ _ _ _ _ h
    have : published (o1 ++ o2) = published o2 := by
      have hp : ∀ (ops : List (BOp K T)) (o1 : List (BOut K T)) (p q : BProc K T), Pushes ops → p.run ops = .ok (q, o1) → published (o1 ++ o2) = published o2 := by
        intro ops
        induction ops with
        | nil => intro o1 p q _ h; cases h; rfl
        | cons op ops ih =>
          intro o1 p q hp h
          rw [BProc.run] at h
          obtain ⟨⟨p1, o⟩, hs, h⟩ := Res.bind_eq_ok.1 h
          obtain ⟨⟨p2, os⟩, hr, h⟩ := Res.bind_eq_ok.1 h
          cases h
          have := ih os p1 _ (fun x hx => hp x (List.mem_cons_of_mem _ hx)) hr
          rcases hp op (List.mem_cons_self ..) with ⟨m, rfl⟩ | ⟨m, rfl⟩
          · cases hs; exact this
          · cases hs; exact this
      exact hp _ _ _ _ (pushes_ops _ _ _ _ _) h4
    rw [this]
    unfold allOps
    rw [pubTimes_pushes _ _ (pushes_ops _ _ _ _ _) _ _ h6, pubTimes_calls _ _ _ _ _ _ h5]
  rw [hpub] at h1
  refine ⟨h1, ?_⟩
  obtain ⟨q, hq⟩ := C96_program lib fs sim envs p p' imus points cams outs hn hfiles h
  rw [keep_ordered _ none (by simp) h1] at hq
  exact ⟨q, hq⟩

end Ordered

/-! ### The shipped configuration -/

open Backend

theorem qbc_unit : (qbc : Quat ℝ).sqNorm = 1 := by
  simp only [qbc, Quat.sqNorm, lit]
  norm_num

/-- C100: the rotation of both shipped camera files is read as the quaternion written in the program. -/
theorem C100_rotation : Quat.ofMat (⟨⟨0, 0, -1⟩, ⟨-1, 0, 0⟩, ⟨0, 1, 0⟩⟩ : Mat3 ℝ) = qbc := by
  have h1 : ScalarFn.lt (0 : ℝ) ((⟨⟨0, 0, -1⟩, ⟨-1, 0, 0⟩, ⟨0, 1, 0⟩⟩ : Mat3 ℝ).trace) = false := by simp [Mat3.trace]
  have h2 : ScalarFn.lt (0 : ℝ) (0 : ℝ) = false := by simp
  unfold Quat.ofMat
  rw [if_neg (by rw [h1]; decide)]
  have h3 : ScalarFn.lt ((⟨⟨0, 0, -1⟩, ⟨-1, 0, 0⟩, ⟨0, 1, 0⟩⟩ : Mat3 ℝ).get 0 0) (0 : ℝ) = false := h2
  simp only [h2, h3, Bool.false_eq_true, if_false]
  simp [qbc, Mat3.get, Mat3.row, Vec3.get]
  norm_num

/-- C100: from the shipped files a backend is configured with exactly the cameras the program simulates, in a state from which C97 holds. -/
theorem C100_shipped (lib : ConfLib ℝ) (fs : String → Option (List Char)) (path : String) (fuel : Nat) (hf : 2 < fuel) (st : Motion ℝ) (g : Vec3 ℝ) (hs : Shipped lib fs path) :
    ∃ (b : Backend ℝ ℝ) (s : Conf.St ℝ), configParams lib fs path fuel .init g (init st) = .ok (some (true, b, ⟨0, 0, 981/100⟩, s)) ∧
      b.u.w.frm.extrinsics = [⟨qbc, pbc0⟩, ⟨qbc, pbc1⟩] ∧ b.loader.imuPeriod = 1 / 200 ∧ b.loader.offset = -1 ∧ b.u.w.frm.maxWindowSize = 6 ∧ b.noise = 21739/10000000 ∧
      b.u.q.biasA = ⟨0, 0, 0⟩ ∧ b.u.q.biasG = ⟨0, 0, 0⟩ ∧ Fresh b ∧ Ready b := by
  obtain ⟨c, m, h, e1, -, -, -, -, e6, e7, e8, e9, e10, -, -, -, e14, -, e16, e17⟩ := Conf.C66_read lib fs path .init 2 fuel _ _ _ _ _ _ _
    (fun i => if i = 0 then table [[0, 0, -1, 5/100], [-1, 0, 0, 4/100], [0, 1, 0, 3/100], [0, 0, 0, 1]] else table [[0, 0, -1, 5/100], [-1, 0, 0, -14/100], [0, 1, 0, 3/100], [0, 0, 0, 1]])
    hs.freq hs.noise hs.bias hs.grav hs.win hs.vis hs.key (by
      intro i hi
      rcases Nat.lt_succ_iff_lt_or_eq.1 hi with hi | rfl
      · obtain rfl : i = 0 := by omega
        exact hs.cam0
      · exact hs.cam1) hs.cam2 (by decide) hf
    (by rintro v ⟨⟩; show (lib.toU32 6).isSome; rw [hs.six]; rfl) (by rintro v ⟨⟩; show (lib.toU32 30).isSome; rw [hs.thirty]; rfl)
  obtain ⟨b, g', hb⟩ := C67_no_ub lib fs path fuel .init ⟨c, m⟩ g (init st : Backend ℝ ℝ) h
  obtain ⟨-, -, f1, f2, -, -, -, f6, f7, f8, f9, f10, -, f12, f13, f14⟩ := C67_config lib fs path fuel .init ⟨c, m⟩ g g' (init st : Backend ℝ ℝ) b true hb
  dsimp only at f1 f2 f6 f7 f8 f9 f10 f12 f13
  have hfresh := (C68_configured lib fs path fuel .init ⟨c, m⟩ g g' st b true hb).1
  have hper : c.period = 1 / 200 := by rw [e1]; simp [table, lit]
  have hgrav : c.gravity = 981 / 100 := by rw [e8]; simp [table]
  have hwin : c.maxFrameNum = 6 := by
    rw [e9]
    show (lib.toU32 6).getD _ = 6
    rw [hs.six]
    rfl
  have hq : c.qbc = [qbc, qbc] := by
    rw [e17, ← C100_rotation]
    simp [List.range_succ, Conf.camOf, table]
  have hp : c.pbc = [pbc0, pbc1] := by
    rw [e16]
    simp [List.range_succ, Conf.camOf, table, pbc0, pbc1, lit]
  have hmax : c.maxFeatures = 30 := e14
  have hext : b.u.w.frm.extrinsics = [⟨qbc, pbc0⟩, ⟨qbc, pbc1⟩] := by
    rw [hq] at f12
    rw [hp] at f13
    match hx : b.u.w.frm.extrinsics with
    | [] => rw [hx] at f12; simp at f12
    | [_] => rw [hx] at f12; simp at f12
    | [x, y] =>
      rw [hx] at f12 f13
      obtain ⟨xq, xp⟩ := x
      obtain ⟨yq, yp⟩ := y
      simp at f12 f13
      obtain ⟨rfl, rfl⟩ := f12
      obtain ⟨rfl, rfl⟩ := f13
      rfl
    | _ :: _ :: _ :: _ => rw [hx] at f12; simp at f12
  have hoff : b.loader.offset = -1 := by
    have hb' := hb
    unfold configParams at hb'
    rw [h, Res.bind_ok] at hb'
    dsimp only at hb'
    obtain ⟨⟨b2, g2⟩, h2, hb'⟩ := Res.bind_eq_ok.1 hb'
    simp only [Res.ok.injEq, Option.some.injEq, Prod.mk.injEq] at hb'
    obtain ⟨-, rfl, rfl, -⟩ := hb'
    unfold applyConfig at h2
    obtain ⟨ex, -, h2⟩ := Res.bind_eq_ok.1 h2
    cases h2
    show (TimeOps.tlit (-1) : ℝ) = -1
    simp
  have hg : g' = ⟨0, 0, 981/100⟩ := by rw [f10, hgrav]; simp [lit]
  have hper' : b.loader.imuPeriod = 1 / 200 := by rw [f1, hper]; rfl
  subst hg
  refine ⟨b, _, hb, hext, hper', hoff, by rw [f2, hwin], ?_, ?_, ?_, hfresh, ⟨f14, ?_, ?_, ?_⟩⟩
  · rw [f6, e10]; simp [table]
  · rw [f8, e6]; simp [table]
  · rw [f9, e7]; simp [table]
  · rw [hper']; simp
  · rw [hper']; simp; norm_num
  · rw [hext, f2, hwin, f7, hmax]
    exact ⟨by decide, by decide, by decide⟩

/-- C97, partial as C68 is: with the shipped configuration and complete data files the whole program has defined behaviour. -/
theorem C97_main_partial (lib : DemoLib ℝ ℝ) (fs : String → Option (List Char)) (prog sim conf : String) (fuel : Nat) (hf : 2 < fuel) (envs : Nat → Env ℝ) (st : Motion ℝ)
    (hs : Shipped lib.conf fs conf) (imus : List (ℝ × Vec3 ℝ × Vec3 ℝ)) (points : List (Vec3 ℝ)) (cams : List (ℝ × Quat ℝ × Vec3 ℝ)) (hfiles : Files lib fs sim imus points cams)
    (hi : cams.length + 1 < two32) : ∃ q rows, main lib fs [prog, sim, conf] fuel envs true st = .ok (some (q, some rows)) := by
  obtain ⟨b, s, h, hext, -, hoff, -, -, -, -, hfr, hre⟩ := C100_shipped lib.conf fs conf fuel hf st ⟨lit 0, lit 0, lit (98/10)⟩ hs
  obtain ⟨p', outs, q, -, hw⟩ := C97_defined_partial lib fs sim envs ⟨{}, ⟨0, 0, 981/100⟩, b⟩ imus points cams rfl hfiles hi hfr hre (by rw [hext]; rfl)
  refine ⟨q, (keep none (published outs)).map rowOf, ?_⟩
  unfold main
  dsimp only [paths, start]
  rw [h, Res.bind_ok]
  dsimp only
  rw [hw]
  rfl

/-! ### What the filter is shown -/

theorem bodyPose_unit (q : Quat ℝ) (p : Vec3 ℝ) (hq : q.sqNorm = 1) : (bodyPose q p).1.sqNorm = 1 := by
  unfold bodyPose
  rw [Quat.sqNorm_mul, hq, Quat.sqNorm_inverse_of_unit _ qbc_unit]
  norm_num

theorem inverse_rotate_rotate (q : Quat ℝ) (hq : q.sqNorm = 1) (v : Vec3 ℝ) : q.inverse.rotate (q.rotate v) = v := by
  rw [← Quat.rotate_mul _ _ (Quat.sqNorm_inverse_of_unit q hq) hq, Quat.inverse_mul_of_unit q hq, Quat.rotate_one]

/-- The point in a camera mounted as `e` on the body, computed with the camera pose. -/
theorem in_camera (qb : Quat ℝ) (pb : Vec3 ℝ) (hb : qb.sqNorm = 1) (e : Extrinsic ℝ) (he : e.q.sqNorm = 1) (x : Vec3 ℝ) :
    e.q.inverse.rotate (qb.inverse.rotate (x - pb) - e.p) = (qb.mul e.q).inverse.rotate (x - (qb.rotate e.p + pb)) := by
  have h1 : x - (qb.rotate e.p + pb) = (x - pb) - qb.rotate e.p := by apply Vec3.ext <;> simp <;> ring
  rw [h1, Quat.inverse_mul _ _ hb he, Quat.rotate_mul _ _ (Quat.sqNorm_inverse_of_unit _ he) (Quat.sqNorm_inverse_of_unit _ hb), Quat.rotate_sub qb.inverse (x - pb) (qb.rotate e.p), inverse_rotate_rotate _ hb]

theorem camera0 (q : Quat ℝ) (p : Vec3 ℝ) : (bodyPose q p).1.mul qbc = q ∧ (bodyPose q p).1.rotate pbc0 + (bodyPose q p).2 = p := by
  constructor
  · unfold bodyPose
    rw [Quat.mul_assoc', Quat.inverse_mul_of_unit _ qbc_unit]
    apply Quat.ext <;> simp [Quat.mul, Quat.one]
  · unfold bodyPose
    apply Vec3.ext <;> simp

/-- C100: the messages of the program show exactly what the configured cameras would see from the body pose that belongs to the pose of camera 0. -/
theorem C100_sight (points : List (Vec3 ℝ)) (t : ℝ) (q : Quat ℝ) (p v : Vec3 ℝ) (hq : q.sqNorm = 1)
    (h0 : ∀ x ∈ points, (q.inverse.rotate (x - p)).z ≠ 0)
    (h1 : ∀ x ∈ points, (((bodyPose q p).1.mul qbc).inverse.rotate (x - ((bodyPose q p).1.rotate pbc1 + (bodyPose q p).2))).z ≠ 0) :
    Spec.ShowsExactly [⟨qbc, pbc0⟩, ⟨qbc, pbc1⟩] (fun id => points.getD id 0) ⟨(bodyPose q p).2, v, (bodyPose q p).1⟩ (camMsg points (t, q, p)) := by
  intro id o hr c n hn e he
  have hb := bodyPose_unit q p hq
  have ho : ∃ y ∈ points, points.getD id 0 = y ∧ o = ⟨[(0, project q p y), (1, project ((bodyPose q p).1.mul qbc) ((bodyPose q p).1.rotate pbc1 + (bodyPose q p).2) y)]⟩ := by
    have hmem : (id, o) ∈ (camMsg points (t, q, p)).ids.zip (camMsg points (t, q, p)).observes := by
      obtain ⟨l1, l2, hl, -⟩ := List.lookup_eq_some_iff.1 hr
      rw [hl]
      simp
    obtain ⟨i, hi⟩ := List.mem_iff_getElem?.1 hmem
    rw [List.getElem?_zip_eq_some] at hi
    obtain ⟨hi1, hi2⟩ := hi
    dsimp only [camMsg] at hi1 hi2
    obtain ⟨hlt, hidx⟩ := List.getElem?_eq_some_iff.1 hi1
    rw [List.getElem_range] at hidx
    subst hidx
    rw [List.getElem?_map] at hi2
    obtain ⟨y, hy, rfl⟩ := Option.map_eq_some_iff.1 hi2
    refine ⟨y, List.mem_of_getElem? hy, ?_, rfl⟩
    rw [List.getD_eq_getElem?_getD, hy]
    rfl
  obtain ⟨y, hy, hpt, rfl⟩ := ho
  dsimp only
  rw [hpt]
  unfold Spec.camDepth Spec.predict
  dsimp only
  simp only [List.mem_cons, List.not_mem_nil, or_false, Prod.mk.injEq] at hn
  rcases hn with ⟨rfl, rfl⟩ | ⟨rfl, rfl⟩
  · obtain rfl : ⟨qbc, pbc0⟩ = e := by simpa using he
    have := in_camera _ (bodyPose q p).2 hb ⟨qbc, pbc0⟩ qbc_unit y
    dsimp only at this ⊢
    rw [this, (camera0 q p).1, (camera0 q p).2]
    exact ⟨h0 y hy, rfl⟩
  · obtain rfl : ⟨qbc, pbc1⟩ = e := by simpa using he
    have := in_camera _ (bodyPose q p).2 hb ⟨qbc, pbc1⟩ qbc_unit y
    dsimp only at this ⊢
    rw [this]
    exact ⟨h1 y hy, rfl⟩

end Demo
end Vio
