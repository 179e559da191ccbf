/-
C92: in a world without noise every estimate of a running filter is exact, in every history of calls.
-/
import Verif.Props.Exact
import Verif.Props.OrderRun
import Verif.Lemmas.Svd

set_option linter.unusedSectionVars false

namespace Vio
open Spec WinSpec AttSpec Update

variable {T : Type} [TimeOps T] [TimeCast T ℝ]

/-- Every tracked feature is seen exactly at the poses of the window. -/
def Seen (point : Nat → Vec3 ℝ) (w : Win ℝ T) : Prop := ∀ id r, w.feat.map.lookup id = some r → SeesExactly w.frm (w.feat.heap r) (point id)

/-- Every frame of the window is where its message was taken. -/
def MsgsExact (point : Nat → Vec3 ℝ) (l : Log ℝ T) (w : Win ℝ T) : Prop :=
  ∀ (i : Nat) (m : FeatMsg ℝ T) (f : Frame ℝ T), l.msgs[i]? = some m → w.frm.frames[i]? = some f → ShowsExactly w.frm.extrinsics point ⟨f.p, f.v, f.q⟩ m

theorem seen_of_msgs {point : Nat → Vec3 ℝ} {l : Log ℝ T} {w : Win ℝ T} (hr : Rel l w) (h : MsgsExact point l w) : Seen point w := by
  intro id r hid j o ho f hf hfid c n hcn e he
  obtain ⟨i, hfi⟩ := List.mem_iff_getElem?.1 hf
  have hi := (List.getElem?_eq_some_iff.1 hfi).1
  have hil : i < l.msgs.length := by rw [← hr.len]; exact hi
  have hm : l.msgs[i]? = some l.msgs[i] := List.getElem?_eq_getElem hil
  have ht := hr.tracks id r hid
  have hid2 := (hr.frames i f _ hfi hm).id_eq
  have hj : j < (w.feat.heap r).observes.length := (List.getElem?_eq_some_iff.1 ho).1
  have hlt := hr.lt
  have hhi := ht.hi
  have hadd : add32 j (w.feat.heap r).first = j + (w.feat.heap r).first := Nat.mod_eq_of_lt (by unfold two32 at *; omega)
  rw [hadd, hid2] at hfid
  have hrep := ht.rep i _ hm
  rw [if_pos (by omega), show l.base + i - (w.feat.heap r).first = j by omega, ho] at hrep
  exact h i _ f hm hfi id o hrep c n hcn e he

theorem msgs_of_seen {point : Nat → Vec3 ℝ} {l : Log ℝ T} {w : Win ℝ T} (hr : Rel l w) (h : Seen point w) : MsgsExact point l w := by
  intro i m f hm hf id o ho c n hcn e he
  cases hid : w.feat.map.lookup id with
  | none =>
    have := hr.untracked id hid m (List.mem_of_getElem? hm)
    rw [this] at ho; cases ho
  | some r =>
    have ht := hr.tracks id r hid
    have hrep := ht.rep i m hm
    rw [ho] at hrep
    split at hrep
    · rename_i hle
      have hid2 := (hr.frames i f m hf hm).id_eq
      have hi := (List.getElem?_eq_some_iff.1 hm).1
      have hlt := hr.lt
      refine h id r hid _ o hrep.symm f (List.mem_of_getElem? hf) ?_ c n hcn e he
      rw [hid2]
      have : add32 (l.base + i - (w.feat.heap r).first) (w.feat.heap r).first = (l.base + i - (w.feat.heap r).first) + (w.feat.heap r).first :=
        Nat.mod_eq_of_lt (by unfold two32 at *; omega)
      rw [this]; omega
    · cases hrep

theorem showsExactly_pose {ex : List (Extrinsic ℝ)} {point : Nat → Vec3 ℝ} {a b : Motion ℝ} {m : FeatMsg ℝ T} (hp : b.p = a.p) (hq : b.q = a.q) (h : ShowsExactly ex point a m) :
    ShowsExactly ex point b m := by
  unfold ShowsExactly at *
  rw [hp, hq]; exact h

/-- Marginalising keeps exactness. -/
theorem msgs_marg {point : Nat → Vec3 ℝ} {l : Log ℝ T} {w w' : Win ℝ T} (hr : Rel l w) (h : MsgsExact point l w) (p : MargPolicy) (ha : Allowed l (.marg p))
    (hm : w.marginalize p = .ok w') : MsgsExact point (l.step (.marg p)) w' := by
  have hlen := hr.len
  have hlt := hr.lt
  have key : ∀ k, k < w.frm.frames.length → ∀ (w' : Win ℝ T), w'.frm = (w.frm.removeFrame k).1 → ∀ b, MsgsExact point ⟨b, l.msgs.eraseIdx k⟩ w' := by
    intro k hk w' hw' b i m f hmi hfi
    rw [hw'] at hfi ⊢
    rw [(removeFrame_keep w.frm k).1]
    rw [removeFrame_get w.frm k i hk] at hfi
    dsimp only at hmi
    rw [List.getElem?_eraseIdx] at hmi
    split at hfi
    · rename_i hik
      rw [if_pos hik] at hmi
      exact h i m f hmi hfi
    · rename_i hik
      rw [if_neg hik] at hmi
      obtain ⟨f0, hf0, rfl⟩ := Option.map_eq_some_iff.1 hfi
      have := h (i + 1) m f0 hmi hf0
      split
      · exact this
      · exact showsExactly_pose rfl rfl this
  cases p with
  | noMarg => cases hm; exact h
  | margOldest =>
    obtain ⟨a, -, hm⟩ := Res.bind_eq_ok.1 hm
    obtain ⟨ft, -, hm⟩ := Res.bind_eq_ok.1 hm
    cases hm
    have ha : l.msgs ≠ [] := ha
    have := List.length_pos_iff.2 ha
    have := key 0 (by omega) ⟨ft, (w.frm.removeFrame 0).1⟩ rfl (l.base + 1)
    rw [List.eraseIdx_zero] at this
    exact this
  | margSubnew =>
    obtain ⟨a, -, hm⟩ := Res.bind_eq_ok.1 hm
    obtain ⟨ft, -, hm⟩ := Res.bind_eq_ok.1 hm
    cases hm
    have ha : 3 ≤ l.msgs.length := ha
    have e : sub32 w.frm.frames.length 2 = l.msgs.length - 2 := by unfold sub32; unfold two32 at *; omega
    rw [e]
    exact key _ (by omega) ⟨ft, (w.frm.removeFrame (l.msgs.length - 2)).1⟩ rfl l.base
  | margNewest =>
    obtain ⟨a, -, hm⟩ := Res.bind_eq_ok.1 hm
    obtain ⟨ft, -, hm⟩ := Res.bind_eq_ok.1 hm
    cases hm
    have ha : 2 ≤ l.msgs.length := ha
    have e : sub32 w.frm.frames.length 1 = l.msgs.length - 1 := by unfold sub32; unfold two32 at *; omega
    rw [e]
    have := key _ (by omega) ⟨ft, (w.frm.removeFrame (l.msgs.length - 1)).1⟩ rfl l.base
    rw [List.eraseIdx_length_sub_one] at this
    exact this

theorem marg_unit {w w' : Win ℝ T} (p : MargPolicy) (hm : w.marginalize p = .ok w') (h : ∀ f ∈ w.frm.frames, f.q.sqNorm = 1) : ∀ f ∈ w'.frm.frames, f.q.sqNorm = 1 := by
  have key : ∀ k, ∀ f ∈ (w.frm.removeFrame k).1.frames, f.q.sqNorm = 1 := by
    intro k f hf
    unfold FrameMgr.removeFrame at hf
    split at hf
    · exact h f hf
    · have hf := List.mem_of_mem_eraseIdx hf
      split at hf
      · rcases List.mem_append.1 hf with hf | hf
        · exact h f (List.mem_of_mem_take hf)
        · obtain ⟨f0, h0, rfl⟩ := List.mem_map.1 hf
          exact h f0 (List.mem_of_mem_drop h0)
      · exact h f hf
  cases p with
  | noMarg => cases hm; exact h
  | margOldest =>
    obtain ⟨a, -, hm⟩ := Res.bind_eq_ok.1 hm
    obtain ⟨ft, -, hm⟩ := Res.bind_eq_ok.1 hm
    cases hm; exact key _
  | margSubnew =>
    obtain ⟨a, -, hm⟩ := Res.bind_eq_ok.1 hm
    obtain ⟨ft, -, hm⟩ := Res.bind_eq_ok.1 hm
    cases hm; exact key _
  | margNewest =>
    obtain ⟨a, -, hm⟩ := Res.bind_eq_ok.1 hm
    obtain ⟨ft, -, hm⟩ := Res.bind_eq_ok.1 hm
    cases hm; exact key _

/-- A message that shows the world from the state the newest frame is set to. -/
theorem msgs_insert {point : Nat → Vec3 ℝ} {l : Log ℝ T} {w : Win ℝ T} (hr : Rel l w) (h : MsgsExact point l w) (m : FeatMsg ℝ T) (hl : m.ids.length = m.observes.length) (st : Motion ℝ)
    (hs : ShowsExactly w.frm.extrinsics point st m) :
    MsgsExact point (l.step (.insert m)) { w.insert m with frm := { (w.insert m).frm with frames := setBack (w.insert m).frm.frames st } } := by
  have e : (l.step (.insert m)).msgs = l.msgs ++ [m] := by
    unfold Log.step
    dsimp only
    split
    · rename_i h0; rw [h0]; rfl
    · rfl
  obtain ⟨f0, hf0⟩ : ∃ f0, (w.insert m).frm.frames = w.frm.frames ++ [f0] := ⟨_, by rw [insert_eq w m hl]⟩
  have hex : (w.insert m).frm.extrinsics = w.frm.extrinsics := by rw [insert_eq w m hl]
  have hb : setBack (w.insert m).frm.frames st = w.frm.frames ++ [{ f0 with p := st.p, v := st.v, q := st.q }] := by
    rw [hf0]; simp [setBack]
  intro i m' f hm hf
  rw [e] at hm
  dsimp only at hf ⊢
  rw [hb] at hf
  rw [hex]
  by_cases hi : i < l.msgs.length
  · rw [List.getElem?_append_left hi] at hm
    rw [List.getElem?_append_left (by rw [hr.len]; exact hi)] at hf
    exact h i m' f hm hf
  · rw [List.getElem?_append_right (by omega)] at hm
    rw [List.getElem?_append_right (by rw [hr.len]; omega), hr.len] at hf
    obtain ⟨hi0, rfl⟩ : i - l.msgs.length = 0 ∧ m = m' := by
      have := (List.getElem?_eq_some_iff.1 hm).1
      rw [List.length_singleton] at this
      have h0 : i - l.msgs.length = 0 := by omega
      rw [h0] at hm
      exact ⟨h0, by simpa using hm⟩
    rw [hi0] at hf
    obtain rfl : _ = f := by simpa using hf
    exact showsExactly_pose rfl rfl hs

namespace Backend
variable [LinearOrder T] [TimeLaws T] [CastLaws T ℝ]

/-- The estimates of a running filter are the truth: the queued states are those of the world, biases and extrinsics the true ones, and the frames of the window are where their observations
were taken. -/
structure ExactState (W : World T) (g ba bg : Vec3 ℝ) (ex : List (Extrinsic ℝ)) (b : Backend ℝ T) : Prop where
  status : b.status = .initialized
  biasA : b.u.q.biasA = ba
  biasG : b.u.q.biasG = bg
  ext : b.u.w.frm.extrinsics = ex
  states : ∀ i ∈ b.u.q.items, i.st = W.motion i.ts
  reckon : Reckon.Ok g b.u.q
  frames : ∀ f ∈ b.u.w.frm.frames, f.q.sqNorm = 1
  seen : Seen W.point b.u.w

/-- What C92 asks of a `RunOnce`: a singular value decomposition that meets its specification, an IMU message that fits the motion since the newest sample, and a features message that shows
the world from the state with which the filter aligns it. -/
structure CallExact (W : World T) (ba bg : Vec3 ℝ) (ex : List (Extrinsic ℝ)) (p : BProc ℝ T) (env : Env ℝ) : Prop where
  svd : ∀ a, IsLastSingular a (env.ext.svdLast a)
  imu : ∀ m ∈ p.b.loader.popOne.out.imuMeas, ∀ s, (p.b.u.q.items.map sample).getLast? = some s → MovesBy W p.g ba bg s (m.accel, m.gyro, m.ts)
  feat : ∀ m, p.b.loader.popOne.out.featMeas = some m →
    ∃ t, AlignedAt (p.b.u.q.items.map (·.ts) ++ p.b.loader.popOne.out.imuMeas.map (·.ts)) m.ts p.b.loader.imuPeriod t ∧ ShowsExactly ex W.point (W.motion t) m

/-- Every `RunOnce` of a history meets `CallExact` in the state it is made in. -/
def ExactRun (W : World T) (ba bg : Vec3 ℝ) (ex : List (Extrinsic ℝ)) : BProc ℝ T → List (BOp ℝ T) → Prop
  | _, [] => True
  | p, op :: ops => (∀ env, op = .run env → CallExact W ba bg ex p env) ∧ ∀ p' o, p.step op = .ok (p', o) → ExactRun W ba bg ex p' ops

theorem pop_one (l : Loader ℝ T) : l.popOne.out.imuMeas = [] ∨ ∃ m, l.popOne.out.imuMeas = [m] := by
  unfold Loader.popOne
  split
  · split
    · split
      · exact .inr ⟨_, rfl⟩
      · exact .inl rfl
    · exact .inr ⟨_, rfl⟩
  · exact .inr ⟨_, rfl⟩
  · exact .inl rfl
  · exact .inl rfl

/-- The IMU part. -/
theorem onImu_exact {W : World T} {g ba bg : Vec3 ℝ} {ex : List (Extrinsic ℝ)} {b b' : Backend ℝ T} {ms : List (ImuMsg ℝ T)} {r : Bool} (hs : ms = [] ∨ ∃ m, ms = [m])
    (h : ExactState W g ba bg ex b) (hne : b.u.q.items ≠ [])
    (hm : ∀ m ∈ ms, ∀ s, (b.u.q.items.map sample).getLast? = some s → MovesBy W g ba bg s (m.accel, m.gyro, m.ts)) (he : b.onImu g ms = .ok (r, b')) :
    ExactState W g ba bg ex b' ∧ b'.u.q.items.map (·.ts) = b.u.q.items.map (·.ts) ++ ms.map (·.ts) := by
  have hok := Reckon.onImu_ok g b b' ms r h.reckon he
  rcases hs with rfl | ⟨m, rfl⟩
  · cases he; exact ⟨h, by simp⟩
  · rw [onImu] at he
    generalize b.att.propagate g m.accel m.gyro m.ts = ar at he
    obtain ⟨att, res⟩ := ar
    dsimp only at he
    rw [h.status] at he
    dsimp only at he
    split at he
    · cases he
      obtain ⟨z, hz⟩ := Option.ne_none_iff_exists'.1 (mt List.getLast?_eq_none_iff.1 hne)
      have hst := hm m (by simp) (sample z) (by rw [List.getLast?_map, hz]; rfl)
      have hzm := h.states z (List.mem_of_getLast? hz)
      unfold PropQueue.propagate at hok ⊢
      simp only [hz] at hok ⊢
      refine ⟨⟨rfl, h.biasA, h.biasG, h.ext, ?_, hok, h.frames, h.seen⟩, by simp [PropQueue.stepItem]⟩
      intro i hi
      dsimp only at hi
      rcases List.mem_append.1 hi with hi | hi
      · exact h.states i hi
      · rw [List.mem_singleton] at hi
        subst hi
        show b.u.q.nominal g z m.accel m.gyro m.ts = W.motion m.ts
        rw [Reckon.nominal_step, h.biasA, h.biasG, hzm]
        exact hst.symm
    · cases he

/-- The vision part. -/
theorem onFeat_exact {W : World T} {g ba bg : Vec3 ℝ} {ex : List (Extrinsic ℝ)} {nc N U : Nat} {l : Log ℝ T} {b b' : Backend ℝ T} {m : FeatMsg ℝ T} {t : T} (env : Env ℝ)
    (hst : Stable False nc N U l b) (hg : GoodMsg l m) (ho : GoodObs nc m) (hb : l.base + l.msgs.length + 1 < two32) (hfit : Fits nc (max 1 N + 1) U)
    (hW : ∀ t, (W.motion t).q.sqNorm = 1) (hex : ∀ e ∈ ex, e.q.sqNorm = 1) (hsvd : ∀ a, IsLastSingular a (env.ext.svdLast a)) (h : ExactState W g ba bg ex b)
    (ha : AlignedAt (b.u.q.items.map (·.ts)) m.ts b.loader.imuPeriod t) (hm : ShowsExactly ex W.point (W.motion t) m) (he : b.onFeat env g m = .ok b') :
    ExactState W g ba bg ex b' := by
  obtain ⟨b1, b2, h1, h2, h3⟩ := onFeat_eq env g b b' m he
  obtain ⟨c1, c2, c3, c4⟩ := cleanAtt_any _ _ h3
  have hok := Reckon.onFeat_ok env g b b' m h.reckon he
  obtain ⟨c, e1, e2⟩ := core_insert hst.toCore m hg ho hb
  have hs1 : (b.setWin (b.u.w.insert m)).status = .initialized := h.status
  unfold tryInit at h1
  rw [hs1] at h1
  cases h1
  unfold tryUpdate at h2
  rw [hs1] at h2
  dsimp only at h2
  rw [if_pos c.mounted] at h2
  obtain ⟨⟨good, u⟩, hu, h2⟩ := Res.bind_eq_ok.1 h2
  dsimp only at h2
  obtain ⟨lv1, lv⟩ := hst.live h.status
  have hlen1 : (l.step (.insert m)).msgs.length = l.msgs.length + 1 := by rw [e1]; simp
  -- the aligned state
  obtain ⟨i0, rest, hi, hit⟩ : ∃ i0 rest, (b.u.q.resetOrigin m.ts b.loader.imuPeriod).1.items = i0 :: rest ∧ i0.ts = t := by
    obtain ⟨old, o1, o2, o3, -, -⟩ := C37_reset b.u.q m.ts b.loader.imuPeriod
    generalize (b.u.q.resetOrigin m.ts b.loader.imuPeriod).1.items = kept at o1 o3
    obtain ⟨olds, rests, a1, a2, a3⟩ := ha
    rw [o1, List.map_append] at a1
    have hcmp : ∀ (xs ys : List T) (x : T) (zs ws : List T), xs ++ ys = zs ++ x :: ws → (∀ a ∈ xs, TimeOps.lt b.loader.imuPeriod (TimeOps.sub m.ts a) = true) →
        (∀ a ∈ zs, TimeOps.lt b.loader.imuPeriod (TimeOps.sub m.ts a) = true) → TimeOps.lt b.loader.imuPeriod (TimeOps.sub m.ts x) = false →
        (∀ a, ys.head? = some a → TimeOps.lt b.loader.imuPeriod (TimeOps.sub m.ts a) = false) → ys = x :: ws := by
      intro xs
      induction xs with
      | nil =>
        intro ys x zs ws e _ hz hx hy
        cases zs with
        | nil => exact e
        | cons z zs =>
          rw [List.nil_append] at e
          have := hy z (by rw [e]; rfl)
          rw [hz z (by simp)] at this
          cases this
      | cons a xs ih =>
        intro ys x zs ws e hxs hz hx hy
        cases zs with
        | nil =>
          rw [List.nil_append, List.cons_append, List.cons.injEq] at e
          rw [e.1] at hxs
          rw [hxs x (by simp)] at hx
          cases hx
        | cons z zs =>
          rw [List.cons_append, List.cons_append, List.cons.injEq] at e
          exact ih ys x zs ws e.2 (fun a ha => hxs a (by simp [ha])) (fun a ha => hz a (by simp [ha])) hx hy
    have hk := hcmp _ _ _ _ _ a1 (by
      intro a ha
      obtain ⟨i, hi, rfl⟩ := List.mem_map.1 ha
      exact o2 i hi) a2 a3 (by
      intro a ha
      rw [List.head?_map] at ha
      obtain ⟨i, hi, rfl⟩ := Option.map_eq_some_iff.1 ha
      exact o3 i hi)
    cases kept with
    | nil => cases hk
    | cons i0 rest =>
      rw [List.map_cons, List.cons.injEq] at hk
      exact ⟨i0, rest, rfl, hk.1⟩
  have hi0 : i0.st = W.motion t := by
    obtain ⟨old, o1, -⟩ := C37_reset b.u.q m.ts b.loader.imuPeriod
    rw [hi] at o1
    rw [h.states i0 (by rw [o1]; simp), hit]
  have hq : (b.setWin (b.u.w.insert m)).u.q = b.u.q := rfl
  have hxe : (b.u.w.insert m).frm.extrinsics = ex := by rw [insert_eq _ _ hg.2.1]; exact h.ext
  obtain ⟨f0, hf0⟩ : ∃ f0, (b.u.w.insert m).frm.frames = b.u.w.frm.frames ++ [f0] := ⟨_, by rw [insert_eq _ _ hg.2.1]⟩
  have hrel : Rel (l.step (.insert m)) (b.u.w.insert m) := c.rel
  have hne1 : (l.step (.insert m)).msgs ≠ [] := by rw [e1]; simp
  have hmx := msgs_insert hst.rel (msgs_of_seen hst.rel h.seen) m hg.2.1 i0.st (by rw [h.ext, hi0]; exact hm)
  have hkeep : KeepWin (b.u.w.insert m) { b.u.w.insert m with frm := { (b.u.w.insert m).frm with frames := setBack (b.u.w.insert m).frm.frames i0.st } } := by
    refine KeepWin.of_frames _ _ ?_ rfl rfl rfl
    dsimp only
    rw [hf0]
    simp [setBack, Frame.key]
  have hrel2 := rel_keep hrel hkeep
  have hseen := seen_of_msgs hrel2 hmx
  have hlast : (b.u.w.insert m).frm.frames.getLast? = some f0 := by rw [hf0]; simp
  obtain ⟨x1, x2, x3, x4, x5, x6⟩ := C91_exact_is_kept env _ _ g (b.setWin (b.u.w.insert m)).u u m.ts b.loader.imuPeriod good (l.step (.insert m)).base i0 rest f0 hsvd (rel_winOk hrel hne1) (by rw [hq]; exact hi) h.reckon
    (by rw [hi0]; exact hW t) (by
      show ∀ f ∈ (b.u.w.insert m).frm.frames.dropLast, _
      rw [hf0, List.dropLast_concat]
      exact h.frames) (by
      show ∀ f ∈ (b.u.w.insert m).frm.extrinsics, _
      rw [hxe]; exact hex) hlast (rel_refsNodup hrel f0 (List.mem_of_getLast? hlast)) (by
      intro e hee
      exact ⟨W.point e.1, hseen e.1 e.2 (rel_frameFeature hrel f0 (List.mem_of_getLast? hlast) e hee).1⟩) hu
  obtain ⟨good', u', v1, v2, v3⟩ := update_ok env b.noise b.maxUsed g (b.setWin (b.u.w.insert m)).u m.ts b.loader.imuPeriod (l.step (.insert m)) c.rel c.addr (by rw [c.ext]; exact c.obs)
    (by rw [hlen1]; omega) (by rw [c.ext, hlen1]; exact lv.dims) (by
      rw [c.ext]
      have : b.maxUsed = U := c.used
      rw [this]
      have := hst.len
      exact hfit.mono (by omega))
  have hsame : good' = good ∧ u' = u := by
    have := v1.symm.trans hu
    simp only [Res.ok.injEq, Prod.mk.injEq] at this
    exact this
  obtain ⟨rfl, rfl⟩ := hsame
  cases good' with
  | false =>
    have := (v2 rfl).2
    rw [this] at x4
    cases x4
  | true =>
    simp only [if_true] at h2
    obtain ⟨w, hw, h2⟩ := Res.bind_eq_ok.1 h2
    cases h2
    have x6 := x6 rfl
    obtain ⟨v4, v5, -, -, -⟩ := v3 rfl
    have hrel3 : Rel (l.step (.insert m)) u'.w := rel_keep hrel v4
    have hmx3 : MsgsExact W.point (l.step (.insert m)) u'.w := by
      intro i m' f hm' hf
      rw [x6] at hf ⊢
      exact hmx i m' f hm' hf
    have hall : Allowed (l.step (.insert m)) (.marg u'.policy) := by
      cases hp : u'.policy with
      | noMarg => trivial
      | margOldest => exact hne1
      | margNewest => rw [hp] at v5; exact absurd v5 (C40_never_newest _)
      | margSubnew =>
        rw [hp] at v5
        show 3 ≤ (l.step (.insert m)).msgs.length
        by_contra hc
        have hl2 : (b.u.w.insert m).frm.frames.length = 2 := by rw [hrel.len]; omega
        obtain ⟨s, z, hfs⟩ := List.length_eq_two.1 hl2
        exact C40_two_frames _ c.addr.nodup s z hfs v5
    have hmx4 := msgs_marg hrel3 hmx3 u'.policy hall hw
    obtain ⟨w', w1, w2⟩ := rel_step _ _ hrel3 (.marg u'.policy) hall
    have hww : w' = w := by
      have : Res.ok w' = Res.ok w := w1.symm.trans hw
      simpa using this
    subst hww
    have hun := marg_unit u'.policy hw (by
      rw [x6]
      intro f hf
      dsimp only at hf
      rw [show (b.setWin (b.u.w.insert m)).u.w = b.u.w.insert m from rfl, hf0] at hf
      simp only [setBack, List.getLast?_concat, List.dropLast_concat, List.mem_append, List.mem_singleton] at hf
      rcases hf with hf | rfl
      · exact h.frames f hf
      · show i0.st.q.sqNorm = 1
        rw [hi0]; exact hW t)
    have hmk := marginalize_keep _ _ _ hw
    refine ⟨by rw [c2], ?_, ?_, ?_, ?_, hok, ?_, ?_⟩ <;> rw [c1]
    · exact x1.trans h.biasA
    · exact x2.trans h.biasG
    · show w'.frm.extrinsics = ex
      rw [hmk.1, x3]; exact hxe
    · intro i hi'
      dsimp only at hi'
      obtain ⟨old, o1, -⟩ := C37_reset b.u.q m.ts b.loader.imuPeriod
      rw [hi] at o1
      obtain ⟨k, hk⟩ := List.mem_iff_getElem?.1 hi'
      have y4 := congrArg (fun l => l[k]?) x4
      have y5 := congrArg (fun l => l[k]?) x5
      simp only [List.getElem?_map, hk, Option.map_some] at y4 y5
      obtain ⟨j, hj, hj4⟩ := Option.map_eq_some_iff.1 y4.symm
      rw [hj, Option.map_some, Option.some.injEq] at y5
      have hjt : j.ts = i.ts := congrArg (fun s : Vec3 ℝ × Vec3 ℝ × T => s.2.2) hj4
      rw [y5, h.states j (by rw [o1]; exact List.mem_append_right _ (List.mem_of_getElem? hj)), hjt]
    · exact hun
    · exact seen_of_msgs w2 hmx4

/-- A `RunOnce`. -/
theorem runOnce_exact {W : World T} {ba bg : Vec3 ℝ} {ex : List (Extrinsic ℝ)} {nc N U : Nat} {l : Log ℝ T} {p : BProc ℝ T} {b' : Backend ℝ T} {r : Bool} (env : Env ℝ)
    (hst : Stable False nc N U l p.b) (hm : ∀ m, p.b.loader.popOne.out.featMeas = some m → GoodMsg l m ∧ GoodObs nc m ∧ l.base + l.msgs.length + 1 < two32)
    (hfit : Fits nc (max 1 N + 1) U) (hW : ∀ t, (W.motion t).q.sqNorm = 1) (hex : ∀ e ∈ ex, e.q.sqNorm = 1) (h : ExactState W p.g ba bg ex p.b)
    (hc : CallExact W ba bg ex p env) (he : p.b.runOnce env p.g = .ok (r, b')) : ExactState W p.g ba bg ex b' := by
  have h0 : ExactState W p.g ba bg ex { p.b with loader := p.b.loader.popOne.loader } := ⟨h.status, h.biasA, h.biasG, h.ext, h.states, h.reckon, h.frames, h.seen⟩
  rcases runOnce_eq env p.g p.b b' r he with ⟨-, -, rfl⟩ | ⟨-, res, b1, h1, h2⟩
  · exact h0
  · have hs0 : Stable False nc N U l { p.b with loader := p.b.loader.popOne.loader } := stable_loader hst _
    obtain ⟨i1, i2⟩ := onImu_exact (pop_one p.b.loader) h0 (hst.live h.status).2.ne hc.imu h1
    obtain ⟨r', b1', j1, j2, -⟩ := onImu_ok False p.g p.b.loader.popOne.out.imuMeas hs0 (by simp)
    have hb : b1' = b1 := by
      have := j1.symm.trans h1
      simp only [Res.ok.injEq, Prod.mk.injEq] at this
      exact this.2
    subst hb
    rcases h2 with ⟨-, -, rfl⟩ | ⟨m, hfm, -, h2⟩
    · exact i1
    · obtain ⟨g1, g2, g3⟩ := hm m hfm
      obtain ⟨t, a1, a2⟩ := hc.feat m hfm
      have hl := (onImu_keep _ _ _ _ _ h1).1
      have hper : b1'.loader.imuPeriod = p.b.loader.imuPeriod := by rw [hl]; exact pop_period _
      exact onFeat_exact env j2 g1 g2 g3 hfit hW hex hc.svd i1 (by rw [i2, hper]; exact a1) a2 h2

theorem publish_exact {W : World T} {g ba bg : Vec3 ℝ} {ex : List (Extrinsic ℝ)} {b : Backend ℝ T} (h : ExactState W g ba bg ex b) (hne : b.u.q.items ≠ []) (s : Option (Published ℝ T))
    (hs : b.publishPropagate = .ok s ∨ b.publishUpdate = .ok s) : ∃ x, s = some x ∧ x.st = W.motion x.ts ∧ x.biasA = ba ∧ x.biasG = bg := by
  have he : b.u.q.items.isEmpty = false := by simpa using hne
  rcases hs with hs | hs
  · unfold publishPropagate at hs
    rw [he] at hs
    obtain ⟨i, hi, hs⟩ := Res.bind_eq_ok.1 hs
    cases hs
    refine ⟨_, rfl, h.states i ?_, h.biasA, h.biasG⟩
    unfold back at hi
    split at hi
    · rename_i hl; cases hi; exact List.mem_of_getLast? hl
    · cases hi
  · unfold publishUpdate at hs
    rw [he] at hs
    obtain ⟨i, hi, hs⟩ := Res.bind_eq_ok.1 hs
    cases hs
    refine ⟨_, rfl, h.states i ?_, h.biasA, h.biasG⟩
    unfold front at hi
    split at hi
    · rename_i hl; cases hi; exact List.mem_of_head? hl
    · cases hi

/-- C92.  A running filter whose estimates are the truth keeps them: in every history of calls without Reset whose messages meet the conditions of C68 and show a world without noise, no
undefined behaviour is met, the filter stays initialised, every published state is the true one with the true biases, and at the end all estimates, of the extrinsics and the poses of the
window as well, are still the truth.  It holds for every window size, number of cameras, covariance, noise parameter, random stream and linear solver. -/
theorem C92_noise_free (W : World T) (ba bg : Vec3 ℝ) (ex : List (Extrinsic ℝ)) (nc N U : Nat) (hfit : Fits nc (max 1 N + 1) U) (hW : ∀ t, (W.motion t).q.sqNorm = 1)
    (hex : ∀ e ∈ ex, e.q.sqNorm = 1) (ops : List (BOp ℝ T)) : ∀ (p : BProc ℝ T) (l : Log ℝ T), Stable False nc N U l p.b →
    TimeOps.tlit 0 ≤ p.b.loader.imuPeriod → TimeOps.mul p.b.loader.imuPeriod (TimeOps.tlit (55/100)) ≤ p.b.loader.imuPeriod → ExactState W p.g ba bg ex p.b →
    GoodRun nc p ops → ExactRun W ba bg ex p ops →
    ∃ p' outs, p.run ops = .ok (p', outs) ∧ ExactState W p.g ba bg ex p'.b ∧
      ∀ s, BOut.state s ∈ outs → ∃ x, s = some x ∧ x.st = W.motion x.ts ∧ x.biasA = ba ∧ x.biasG = bg := by
  induction ops with
  | nil => intro p l _ _ _ h _ _; exact ⟨p, [], rfl, h, by simp⟩
  | cons op ops ih =>
    intro p l h h0 h1 hx ⟨hc, hg⟩ ⟨hcx, hgx⟩
    have fin : ∀ p1 o l1, p.step op = .ok (p1, o) → Stable False nc N U l1 p1.b → p1.b.loader.imuPeriod = p.b.loader.imuPeriod → p1.g = p.g → ExactState W p.g ba bg ex p1.b →
        (∀ s, o = .state s → ∃ x, s = some x ∧ x.st = W.motion x.ts ∧ x.biasA = ba ∧ x.biasG = bg) →
        ∃ p' outs, p.run (op :: ops) = .ok (p', outs) ∧ ExactState W p.g ba bg ex p'.b ∧
          ∀ s, BOut.state s ∈ outs → ∃ x, s = some x ∧ x.st = W.motion x.ts ∧ x.biasA = ba ∧ x.biasG = bg := by
      intro p1 o l1 e hs hp hpg hx1 ho
      obtain ⟨p', outs, r1, r2, r3⟩ := ih p1 l1 hs (by rw [hp]; exact h0) (by rw [hp]; exact h1) (by rw [hpg]; exact hx1) (hg p1 o e) (hgx p1 o e)
      refine ⟨p', o :: outs, ?_, by rw [hpg] at r2; exact r2, ?_⟩
      · rw [BProc.run, e, Res.bind_ok]
        dsimp only
        rw [r1, Res.bind_ok]
      · intro s hs
        rcases List.mem_cons.1 hs with hs | hs
        · exact ho s hs.symm
        · exact r3 s hs
    have hne := (h.live hx.status).2.ne
    have hld : ∀ ld, ExactState W p.g ba bg ex { p.b with loader := ld } := fun ld => ⟨hx.status, hx.biasA, hx.biasG, hx.ext, hx.states, hx.reckon, hx.frames, hx.seen⟩
    cases op with
    | imu m => exact fin _ _ l rfl (stable_loader h _) rfl rfl (hld _) (by intro s hs; cases hs)
    | feat m => exact fin _ _ l rfl (stable_loader h _) (push_period _ _ _) rfl (hld _) (by intro s hs; cases hs)
    | run env =>
      obtain ⟨l, h, hb1⟩ := stable_base h
      have hpop := callOk_msg h hb1 env hc
      obtain ⟨r, b', l', e1, e2, -⟩ := runOnce_ok False env p.g h hfit h0 h1 hpop (by simp)
      refine fin { p with b := b' } (.ret r) l' ?_ e2 ?_ rfl (runOnce_exact env h hpop hfit hW hex hx (hcx env rfl) e1) (by intro s hs; cases hs)
      · rw [BProc.step, e1, Res.bind_ok]
      · show b'.loader.imuPeriod = _
        rw [runOnce_loader _ _ _ _ _ e1, pop_period]
    | runTest => exact fin _ _ l rfl (stable_loader h _) (pop_period _) rfl (hld _) (by intro s hs; cases hs)
    | publishPropagate =>
      obtain ⟨s, hs⟩ := (publish_ok p.b).1
      exact fin p (.state s) l (by rw [BProc.step, hs, Res.bind_ok]) h rfl rfl hx (by intro s' e; cases e; exact publish_exact hx hne s (.inl hs))
    | publishUpdate =>
      obtain ⟨s, hs⟩ := (publish_ok p.b).2
      exact fin p (.state s) l (by rw [BProc.step, hs, Res.bind_ok]) h rfl rfl hx (by intro s' e; cases e; exact publish_exact hx hne s (.inr hs))
    | reset => exact hc.elim

theorem run_period (ops : List (BOp ℝ T)) : ∀ (p p' : BProc ℝ T) (outs : List (BOut ℝ T)), p.run ops = .ok (p', outs) → p'.b.loader.imuPeriod = p.b.loader.imuPeriod := by
  induction ops with
  | nil => intro p p' outs h; cases h; rfl
  | cons op ops ih =>
    intro p p' outs h
    rw [BProc.run] at h
    obtain ⟨⟨p1, o⟩, hs, h⟩ := Res.bind_eq_ok.1 h
    obtain ⟨⟨p2, os⟩, hr, h⟩ := Res.bind_eq_ok.1 h
    cases h
    exact (ih p1 p' os hr).trans (step_period p p1 op o hs)

/-- C92 for a filter that got its estimates in a well-formed history from the start: whenever they happen to be the truth, they stay it. -/
theorem C92_reachable (W : World T) (ba bg : Vec3 ℝ) (ex : List (Extrinsic ℝ)) (hW : ∀ t, (W.motion t).q.sqNorm = 1) (hex : ∀ e ∈ ex, e.q.sqNorm = 1)
    (p0 p : BProc ℝ T) (pre ops : List (BOp ℝ T)) (outs0 : List (BOut ℝ T)) (hf : Fresh p0.b) (hr : Ready p0.b) (hg0 : GoodRun p0.b.u.w.frm.extrinsics.length p0 pre)
    (h0 : p0.run pre = .ok (p, outs0)) (hx : ExactState W p.g ba bg ex p.b) (hg : GoodRun p0.b.u.w.frm.extrinsics.length p ops) (he : ExactRun W ba bg ex p ops) :
    ∃ p' outs, p.run ops = .ok (p', outs) ∧ ExactState W p.g ba bg ex p'.b ∧ ∀ s, BOut.state s ∈ outs → ∃ x, s = some x ∧ x.st = W.motion x.ts ∧ x.biasA = ba ∧ x.biasG = bg := by
  obtain ⟨p', outs, h, l, hl⟩ := safe_run _ _ _ hr.fits pre p0 Log.empty (fresh_stable p0.b hf hr) hr.period hr.half hg0
  have e : p' = p := by
    have := h.symm.trans h0
    simp only [Res.ok.injEq, Prod.mk.injEq] at this
    exact this.1
  subst e
  have hper := run_period pre p0 p' outs h
  exact C92_noise_free W ba bg ex _ _ _ hr.fits hW hex ops p' l hl (by rw [hper]; exact hr.period) (by rw [hper]; exact hr.half) hx hg he

/-! ### A concrete case of C92 -/

/-- A body that moves along x at unit speed past a point four metres ahead of its camera. -/
noncomputable def exWorld : World ℝ := ⟨fun _ => ⟨0, 0, 4⟩, fun t => ⟨⟨t, 0, 0⟩, ⟨1, 0, 0⟩, .one⟩⟩

/-- What its camera sees of the point at a time. -/
noncomputable def exSight (t : ℝ) : FeatMsg ℝ ℝ := ⟨[4], [⟨[(0, ⟨-t / 4, 0⟩)]⟩], t⟩

/-- The filter of `exReal` after the image of time zero, with the true state and with the messages of time 1/5 in its loader. -/
noncomputable def exTrue : Backend ℝ ℝ :=
  let b := exReal.setWin (exReal.u.w.insert (exSight 0))
  { b with
    status := .initialized
    att := { b.att with items := [⟨.one, ⟨0, 0, 10⟩, 0, 0⟩] }
    loader := { b.loader with imuMeas := [⟨0, ⟨0, 0, 10⟩, 1/5⟩], featMeas := [exSight (1/5)] }
    u := { b.u with q := { b.u.q with initState := ⟨0, ⟨1, 0, 0⟩, .one⟩ }.propagate 1 ⟨0, 0, 10⟩ ⟨0, 0, 10⟩ 0 0 } }

theorem exSight_ok (t : ℝ) : MsgOk 1 (exSight t) := by
  refine ⟨by show [4].Nodup; decide, rfl, ?_⟩
  intro o ho
  have : o = ⟨[(0, ⟨-t / 4, 0⟩)]⟩ := by simpa [exSight] using ho
  subst this; simp

theorem exSight_exact (t : ℝ) : ShowsExactly [⟨.one, 0⟩] exWorld.point (exWorld.motion t) (exSight t) := by
  intro id o ho c n hcn e he
  have hid : id = 4 ∧ o = ⟨[(0, ⟨-t / 4, 0⟩)]⟩ := by
    by_cases h : id = 4
    · subst h; simp [report, exSight] at ho; exact ⟨rfl, ho.symm⟩
    · simp [report, exSight, List.lookup, beq_eq_false_iff_ne.2 h] at ho
  obtain ⟨rfl, rfl⟩ := hid
  obtain ⟨rfl, rfl⟩ : c = 0 ∧ n = ⟨-t / 4, 0⟩ := by simpa using hcn
  have he : e = ⟨.one, 0⟩ := by simpa using he.symm
  subst he
  refine ⟨?_, ?_⟩
  · simp [camDepth, exWorld, Quat.one, Quat.inverse, Quat.rotate, Quat.sqNorm, Quat.vec]
  · simp [predict, exWorld, Quat.one, Quat.inverse, Quat.rotate, Quat.sqNorm, Quat.vec]

theorem exWorld_moves (a b : ℝ) : MovesBy exWorld ⟨0, 0, 10⟩ 0 0 (⟨0, 0, 10⟩, 0, a) (⟨0, 0, 10⟩, 0, b) := by
  have e1 : Utility.deltaQ (0 : Vec3 ℝ) = .one := by simp [Utility.deltaQ, Quat.one, Vec3.sdiv]
  have e2 : (Quat.one : Quat ℝ).normalized = .one := by simp [Quat.normalized, Quat.one, Quat.sqNorm]
  have e3 : ∀ v : Vec3 ℝ, (Quat.one : Quat ℝ).rotate v = v := by intro v; apply Vec3.ext <;> simp [Quat.one, Quat.rotate, Quat.vec]
  have e4 : ∀ d : ℝ, Reckon.during (Reckon.half ((0 : Vec3 ℝ) + 0) - 0) d = 0 := by intro d; apply Vec3.ext <;> simp [Reckon.during, Reckon.half]
  have e5 : (Quat.one : Quat ℝ).mul .one = .one := by simp [Quat.one, Quat.mul]
  unfold MovesBy Reckon.step exWorld
  simp only [e4, e1, e5, e2, e3]
  congr 1 <;> apply Vec3.ext <;> simp [Reckon.during, Reckon.half, Reckon.gap] <;> ring_nf <;> simp

theorem exTrue_frames : ∃ f, exTrue.u.w.frm.frames = [f] ∧ f.p = 0 ∧ f.q = .one ∧ f.id = 1 ∧ f.features.map (·.1) = [4] := by
  have h : exTrue.u.w.frm.frames = (exReal.u.w.insert (exSight 0)).frm.frames := rfl
  rw [h, insert_eq _ _ rfl]
  exact ⟨_, rfl, rfl, rfl, rfl, rfl⟩

theorem exTrue_stable : Stable False 1 2 20 (Log.empty.step (.insert (exSight 0))) exTrue := by
  have hr : Ready exReal := by
    refine ⟨rfl, ?_, ?_, ⟨by decide, by decide, by decide⟩⟩
    · show (((0 : ℚ) : ℝ)) ≤ 1 / 10; norm_num
    · show (1 / 10 : ℝ) * ((55 / 100 : ℚ) : ℝ) ≤ 1 / 10; norm_num
  have h0 : Stable False 1 2 20 Log.empty exReal := fresh_stable exReal ⟨rfl, rfl, rfl, rfl, rfl, rfl, rfl⟩ hr
  have hm := exSight_ok 0
  obtain ⟨c, e, -⟩ := core_insert h0.toCore (exSight 0) ⟨hm.nodup, hm.len, fun o ho => (hm.obs o ho).1, fun id _ h => by obtain ⟨m', h', -⟩ := h; cases h'⟩ hm.obs (by decide)
  refine ⟨⟨c.mounted, c.ext, c.size, c.used, c.rel, c.addr, c.obs, c.base, by simp [Sorted, exTrue]⟩, ?_, ?_, ?_⟩
  · rw [e]; decide
  · intro h; cases h
  · intro _
    rw [e]
    refine ⟨by decide, ?_, ?_, ?_⟩
    · exact List.cons_ne_nil _ _
    · exact propagate_qdims ({ exReal.u.q with initState := ⟨0, ⟨1, 0, 0⟩, .one⟩ } : PropQueue ℝ ℝ) 1 12 ⟨0, 0, 10⟩ ⟨0, 0, 10⟩ 0 0 (.inl ⟨rfl, rfl⟩)
    · refine ⟨_, rfl, ?_, fun h => h.elim⟩
      intro it hit
      have : it.ts = 0 := by
        rcases List.mem_cons.1 hit with rfl | h
        · rfl
        · cases h
      rw [this]; exact le_rfl

theorem exTrue_exact : ExactState exWorld ⟨0, 0, 10⟩ 0 0 [⟨.one, 0⟩] exTrue := by
  obtain ⟨f, hf, hp, hq, -, -⟩ := exTrue_frames
  refine ⟨rfl, rfl, rfl, rfl, ?_, trivial, ?_, ?_⟩
  · intro i hi
    rcases List.mem_cons.1 hi with rfl | h
    · rfl
    · cases h
  · intro f' hf'
    rw [hf] at hf'
    obtain rfl : f' = f := by simpa using hf'
    rw [hq]; simp [Quat.one, Quat.sqNorm]
  · refine seen_of_msgs exTrue_stable.rel ?_
    intro i m f' hm hf'
    rw [hf] at hf'
    obtain ⟨rfl, rfl⟩ : i = 0 ∧ f' = f := by
      cases i with
      | zero => simpa using hf'.symm
      | succ n => simp at hf'
    obtain rfl : m = exSight 0 := by
      have : (Log.empty.step (.insert (exSight 0)) : Log ℝ ℝ).msgs = [exSight 0] := rfl
      rw [this] at hm; simpa using hm.symm
    exact showsExactly_pose hp hq (exSight_exact 0)

theorem exTrue_callOk (env : Env ℝ) : CallOk 1 (⟨{}, ⟨0, 0, 10⟩, exTrue⟩ : BProc ℝ ℝ) (.run env) := by
  have hpop : exTrue.loader.popOne.out = ⟨some (exSight (1/5)), [⟨0, ⟨0, 0, 10⟩, 1/5⟩]⟩ := by
    simp [exTrue, Loader.popOne, exSight, setWin, exReal]
  obtain ⟨f, hf, hp, hq, hid, hk⟩ := exTrue_frames
  intro m hm
  dsimp only at hm
  rw [hpop] at hm
  cases hm
  refine ⟨exSight_ok _, ?_, ?_⟩
  · intro id hid' _
    exact ⟨f, by dsimp only; rw [hf]; rfl, by rw [hk]; exact hid'⟩
  · intro f' hf'
    dsimp only at hf'
    rw [hf] at hf'
    obtain rfl : f = f' := by simpa using hf'
    rw [hid]; decide

/-- An environment for which a call of `RunOnce` on this filter meets the hypotheses of C92. -/
theorem exTrue_env : ∃ env : Env ℝ, GoodExt env.ext ∧ CallOk 1 (⟨{}, ⟨0, 0, 10⟩, exTrue⟩ : BProc ℝ ℝ) (.run env) ∧
    ∀ env', (BOp.run env : BOp ℝ ℝ) = .run env' → CallExact exWorld 0 0 [⟨.one, 0⟩] (⟨{}, ⟨0, 0, 10⟩, exTrue⟩ : BProc ℝ ℝ) env' := by
  obtain ⟨svd, hsvd⟩ := exists_svd
  obtain ⟨ext, hgood, hext, -, -⟩ := exists_goodExt ⟨svd, fun _ v => v, fun _ _ => ⟨0, 0⟩, fun _ _ _ => 0, fun _ _ => 0, fun _ _ _ => 0⟩
  have hpop : exTrue.loader.popOne.out = ⟨some (exSight (1/5)), [⟨0, ⟨0, 0, 10⟩, 1/5⟩]⟩ := by
    simp [exTrue, Loader.popOne, exSight, setWin, exReal]
  refine ⟨⟨ext, id, id, fun _ _ => 0⟩, hgood, exTrue_callOk _, ?_⟩
  · intro env henv
    cases henv
    refine ⟨?_, ?_, ?_⟩
    · intro a; dsimp only; rw [hext]; exact hsvd a
    · intro m hm s hs
      dsimp only at hm
      rw [hpop] at hm
      obtain rfl : m = ⟨0, ⟨0, 0, 10⟩, 1/5⟩ := by simpa using hm
      cases hs
      exact exWorld_moves _ _
    · intro m hm
      dsimp only at hm
      rw [hpop] at hm
      cases hm
      refine ⟨1/5, ⟨[0], [], ?_, ?_, ?_⟩, exSight_exact _⟩
      · dsimp only; rw [hpop]; rfl
      · intro x hx
        obtain rfl : x = 0 := by simpa using hx
        show decide ((1 / 10 : ℝ) < 1 / 5 - 0) = true
        norm_num
      · show decide ((1 / 10 : ℝ) < 1 / 5 - 1 / 5) = false
        norm_num

/-- C92: there is an environment for which the call of `RunOnce` on this filter meets the hypotheses, with an IMU sample and an image; both publications after it are the truth. -/
example : ∃ env : Env ℝ, ∃ p' outs, (⟨{}, ⟨0, 0, 10⟩, exTrue⟩ : BProc ℝ ℝ).run [.run env, .publishUpdate, .publishPropagate] = .ok (p', outs) ∧
    ExactState exWorld ⟨0, 0, 10⟩ 0 0 [⟨.one, 0⟩] p'.b ∧ ∀ s, BOut.state s ∈ outs → ∃ x, s = some x ∧ x.st = exWorld.motion x.ts ∧ x.biasA = 0 ∧ x.biasG = 0 := by
  obtain ⟨env, -, h1, h2⟩ := exTrue_env
  refine ⟨env, C92_noise_free exWorld 0 0 [⟨.one, 0⟩] 1 2 20 ⟨by decide, by decide, by decide⟩ (fun t => by simp [exWorld, Quat.one, Quat.sqNorm])
    (by simp [Quat.one, Quat.sqNorm]) _ _ _ exTrue_stable ?_ ?_ exTrue_exact ⟨h1, fun p1 o _ => ⟨trivial, fun p2 o _ => ⟨trivial, fun _ _ _ => trivial⟩⟩⟩
    ⟨h2, fun p1 o _ => ⟨(fun _ h => nomatch h), fun p2 o _ => ⟨(fun _ h => nomatch h), fun _ _ _ => trivial⟩⟩⟩⟩
  · show (((0 : ℚ) : ℝ)) ≤ 1 / 10; norm_num
  · show (1 / 10 : ℝ) * ((55 / 100 : ℚ) : ℝ) ≤ 1 / 10; norm_num

end Backend
end Vio
