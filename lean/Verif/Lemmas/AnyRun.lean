/-
What every defined call does to the window length and to the times of the queues, whatever the messages contain.
-/
import Verif.Lemmas.BackendSafe

set_option linter.unusedSectionVars false

namespace Vio
open Spec WinSpec AttSpec Update

variable {K T : Type} [Add K] [Sub K] [Mul K] [Neg K] [Div K] [Zero K] [One K] [ScalarFn K]
  [TimeOps T] [TimeCast T K]

namespace Update

theorem storeCov_sample (s s' : PropQueue K T) (c : DMat K) (h : storeCov s c = .ok s') : s'.items.map sample = s.items.map sample := by
  unfold storeCov at h
  split at h
  · cases h
  · rename_i i0 rest hi
    obtain ⟨_, _, h⟩ := Res.bind_eq_ok.1 h
    obtain ⟨_, _, h⟩ := Res.bind_eq_ok.1 h
    obtain ⟨_, _, h⟩ := Res.bind_eq_ok.1 h
    cases h
    rw [hi]; rfl

theorem finish_any (env : Env K) (g : Vec3 K) (u u' : Upd K T) (b : Bool) (h : finish env g u = .ok (b, u')) :
    u'.q.items.map sample = u.q.items.map sample ∧ u'.w = u.w ∧ u'.policy = u.policy ∧ b = true := by
  unfold finish at h
  obtain ⟨c1, h1, h⟩ := Res.bind_eq_ok.1 h
  obtain ⟨c2, h2, h⟩ := Res.bind_eq_ok.1 h
  obtain ⟨s, h3, h⟩ := Res.bind_eq_ok.1 h
  cases h
  exact ⟨(C36_samples_kept s g).1.trans (storeCov_sample _ _ _ h3), rfl, rfl, rfl⟩

theorem correct_sample (dx : DMat K) (s s' : PropQueue K T) (m m' : FrameMgr K T) (h : correct dx s m = .ok (s', m')) : s'.items.map sample = s.items.map sample := by
  unfold correct at h
  split at h
  · cases h
  · rename_i i0 rest hi
    obtain ⟨_, _, h⟩ := Res.bind_eq_ok.1 h
    obtain ⟨_, _, h⟩ := Res.bind_eq_ok.1 h
    obtain ⟨_, _, h⟩ := Res.bind_eq_ok.1 h
    obtain ⟨_, _, h⟩ := Res.bind_eq_ok.1 h
    obtain ⟨_, _, h⟩ := Res.bind_eq_ok.1 h
    obtain ⟨_, _, h⟩ := Res.bind_eq_ok.1 h
    obtain ⟨_, _, h⟩ := Res.bind_eq_ok.1 h
    obtain ⟨_, _, h⟩ := Res.bind_eq_ok.1 h
    cases h
    rw [hi]; rfl

theorem updateNewest_size (s : PropQueue K T) (m m' : FrameMgr K T) (g : Bool) (h : updateNewest s m = .ok (g, m')) : m'.maxWindowSize = m.maxWindowSize := by
  unfold updateNewest at h
  split at h
  · cases h; rfl
  · obtain ⟨_, _, h⟩ := Res.bind_eq_ok.1 h
    cases h; rfl

/-- Any defined update: samples are those kept by `ResetOrigin`, the number of frames stays; success needs a kept sample and a policy. -/
theorem update_any (env : Env K) (noise : K) (maxUsed : Nat) (g : Vec3 K) (u u' : Upd K T) (ts thr : T) (good : Bool) (h : update env noise maxUsed g u ts thr = .ok (good, u')) :
    u'.q.items.map sample = (u.q.resetOrigin ts thr).1.items.map sample ∧ u'.w.frm.frames.length = u.w.frm.frames.length ∧ u'.w.frm.maxWindowSize = u.w.frm.maxWindowSize ∧
    (good = true → (u.q.resetOrigin ts thr).1.items ≠ [] ∧ decidePolicy u.w = .ok u'.policy) := by
  obtain ⟨-, -, -, -, o4, -⟩ := C37_reset u.q ts thr
  unfold update at h
  generalize u.q.resetOrigin ts thr = q at h o4 ⊢
  obtain ⟨s, found⟩ := q
  dsimp only at h o4 ⊢
  split at h
  · cases h; exact ⟨rfl, rfl, rfl, by simp⟩
  rename_i hfound
  have hne : s.items ≠ [] := o4.1 (by simpa using hfound)
  obtain ⟨policy, hp, h⟩ := Res.bind_eq_ok.1 h
  obtain ⟨⟨good1, c⟩, hc, h⟩ := Res.bind_eq_ok.1 h
  dsimp only at h hp
  split at h
  · cases h; exact ⟨rfl, rfl, rfl, by simp⟩
  obtain ⟨⟨good', m⟩, hn, h⟩ := Res.bind_eq_ok.1 h
  dsimp only at h
  obtain ⟨n1, n2⟩ := updateNewest_length _ _ _ _ hn
  have n3 := updateNewest_size _ _ _ _ hn
  split at h
  · cases h; exact ⟨rfl, n2, n3, by simp⟩
  obtain ⟨⟨w, fs, pos⟩, hs, h⟩ := Res.bind_eq_ok.1 h
  dsimp only at h hs hn
  have hw : w.frm = m := by
    unfold selectGood at hs
    obtain ⟨f, _, hs⟩ := Res.bind_eq_ok.1 hs
    obtain ⟨⟨w1, good1, pos1⟩, hl, hs⟩ := Res.bind_eq_ok.1 hs
    cases hs
    exact selectLoop_frm env _ _ _ _ _ _ _ hl
  split at h
  · obtain ⟨e1, e2, e3, e4⟩ := finish_any _ _ _ _ _ h
    dsimp only at e1 e2 e3 e4
    rw [e2, e3, hw]
    exact ⟨e1, n2, n3, fun _ => ⟨hne, hp⟩⟩
  · obtain ⟨hx, hm, h⟩ := Res.bind_eq_ok.1 h
    split at h
    · cases h
      dsimp only
      rw [hw]
      exact ⟨rfl, n2, n3, by simp⟩
    · obtain ⟨u1, hu, h⟩ := Res.bind_eq_ok.1 h
      unfold updateState at hu
      obtain ⟨k, hk, hu⟩ := Res.bind_eq_ok.1 hu
      obtain ⟨⟨s1, m1⟩, hco, hu⟩ := Res.bind_eq_ok.1 hu
      dsimp only at hco hu
      obtain ⟨-, c2, c3⟩ := correct_length _ _ _ _ _ hco
      have c4 := correct_sample _ _ _ _ _ hco
      cases hu
      obtain ⟨e1, e2, e3, e4⟩ := finish_any _ _ _ _ _ h
      dsimp only at e1 e2 e3 e4
      rw [e2, e3]
      dsimp only
      rw [c2, c3, hw]
      exact ⟨e1.trans c4, n2, n3, fun _ => ⟨hne, hp⟩⟩

end Update

theorem insert_length (w : Win K T) (m : FeatMsg K T) : (w.insert m).frm.frames.length = w.frm.frames.length + 1 ∧ (w.insert m).frm.maxWindowSize = w.frm.maxWindowSize := by
  unfold Win.insert FrameMgr.addNewFrame
  dsimp only
  exact ⟨by simp, rfl⟩

theorem margOldest_length (w w' : Win K T) (h : w.marginalize .margOldest = .ok w') : w'.frm.frames.length + 1 = w.frm.frames.length := by
  obtain ⟨a, ha, h⟩ := Res.bind_eq_ok.1 h
  obtain ⟨b, _, h⟩ := Res.bind_eq_ok.1 h
  cases h
  have hpos : 0 < w.frm.frames.length := by
    cases hf : w.frm.frames with
    | nil => rw [hf] at ha; cases ha
    | cons x xs => simp
  have := removeFrame_len w.frm 0 hpos
  dsimp only
  omega

namespace Backend

theorem shrink_any (n : Nat) : ∀ w w' : Win K T, shrink n w = .ok w' → 1 ≤ w.frm.frames.length → w.frm.frames.length ≤ n + 1 →
    w'.frm.frames.length = 1 ∧ w'.frm.maxWindowSize = w.frm.maxWindowSize := by
  induction n with
  | zero => intro w w' h h1 h2; cases h; exact ⟨by omega, rfl⟩
  | succ n ih =>
    intro w w' h h1 h2
    rw [shrink] at h
    split at h
    · obtain ⟨w1, hm, h⟩ := Res.bind_eq_ok.1 h
      have e1 := margOldest_length _ _ hm
      obtain ⟨i1, i2⟩ := ih w1 w' h (by omega) (by omega)
      exact ⟨i1, i2.trans (marginalize_keep _ _ _ hm).2⟩
    · cases h; exact ⟨by omega, rfl⟩

theorem shrunk_any (b b' : Backend K T) (h : b.shrunk = .ok b') (h1 : 1 ≤ b.u.w.frm.frames.length) :
    ∃ w, b' = b.setWin w ∧ w.frm.frames.length = 1 ∧ w.frm.maxWindowSize = b.u.w.frm.maxWindowSize := by
  obtain ⟨w, e, hs⟩ := shrunk_keep b b' h
  obtain ⟨s1, s2⟩ := shrink_any _ _ _ hs h1 (by omega)
  exact ⟨w, e, s1, s2⟩

theorem clean_any (s s' : Att K T) (ts : T) (thr : K) (h : s.cleanOldItems ts thr = .ok s') : s'.items <:+ s.items ∧ s'.items.getLast? = s.items.getLast? := by
  rcases C27_clean s s' ts thr h with ⟨h1, rfl⟩ | ⟨old, it, new, h1, -, -, rfl⟩
  · exact ⟨List.suffix_refl _, rfl⟩
  · have : it :: new <:+ s.items := ⟨old, h1.symm⟩
    exact ⟨this, suffix_getLast? this (by simp)⟩

/-- Any defined attempt to initialise. -/
theorem initialise_any (env : Env K) (g : Vec3 K) (b b' : Backend K T) (r : Bool) (h : initialise env g b = .ok (r, b')) :
    b'.u.w.frm.frames.length = b.u.w.frm.frames.length ∧ b'.u.w.frm.maxWindowSize = b.u.w.frm.maxWindowSize ∧ b'.att.items <:+ b.att.items ∧
    b'.att.items.getLast? = b.att.items.getLast? ∧ b'.status = b.status ∧ (r = false → b'.u.q = b.u.q) ∧
    (r = true → b'.u.q.items ≠ [] ∧ b'.u.q.items.map (·.ts) = b.u.q.items.map (·.ts) ++ b'.att.items.map (·.ts)) := by
  unfold initialise at h
  split at h
  · rename_i fi fj rest hfr
    dsimp only at h
    split at h
    · cases h; exact ⟨rfl, rfl, List.suffix_refl _, rfl, rfl, fun _ => rfl, by simp⟩
    · obtain ⟨a, ha, h⟩ := Res.bind_eq_ok.1 h
      cases a with
      | none => cases h; exact ⟨rfl, rfl, List.suffix_refl _, rfl, rfl, fun _ => rfl, by simp⟩
      | some q =>
        obtain ⟨w, hw, h⟩ := Res.bind_eq_ok.1 h
        have hfrm := (triMultiView_spec _ _ _ _ _ hw).1.frm
        have hsz : w.frm.maxWindowSize = b.u.w.frm.maxWindowSize := by rw [hfrm]; rfl
        obtain ⟨⟨good, fj'⟩, he, h⟩ := Res.bind_eq_ok.1 h
        dsimp only at h
        split at h
        · cases h; exact ⟨by simp [setWin, setFrames, hfr], hsz, List.suffix_refl _, rfl, rfl, fun _ => rfl, by simp⟩
        · obtain ⟨b1, h1, h⟩ := Res.bind_eq_ok.1 h
          obtain ⟨i0, hi0, h⟩ := Res.bind_eq_ok.1 h
          cases h
          obtain ⟨att, s, rfl, hc, hr⟩ := initPropagator_keep _ _ _ _ _ h1
          obtain ⟨-, -, -, -, r5, -⟩ := replay_spec _ _ _ _ _ _ hr
          obtain ⟨c1, c2⟩ := clean_any _ _ _ _ hc
          refine ⟨by simp [setWin, setFrames, hfr], hsz, c1, c2, rfl, by simp, fun _ => ⟨?_, r5⟩⟩
          intro hcon
          dsimp only at hi0 hcon
          rw [hcon] at hi0
          cases hi0
  · cases h; exact ⟨rfl, rfl, List.suffix_refl _, rfl, rfl, fun _ => rfl, by simp⟩

/-- Times of a list of states. -/
def times (l : List (PropItem K T)) : List T := l.map (·.ts)

theorem tryInit_any (env : Env K) (g : Vec3 K) (b b' : Backend K T) (h : b.tryInit env g = .ok b') (h1 : 1 ≤ b.u.w.frm.frames.length) :
    b'.u.w.frm.frames.length ≤ b.u.w.frm.frames.length ∧ 1 ≤ b'.u.w.frm.frames.length ∧ b'.u.w.frm.maxWindowSize = b.u.w.frm.maxWindowSize ∧ b'.att.items <:+ b.att.items ∧
    b'.att.items.getLast? = b.att.items.getLast? ∧
    (b'.status = .needInit → b'.u.q = b.u.q ∧ b'.u.w.frm.frames.length = 1) ∧
    (b'.status = .initialized → b.status = .initialized ∧ b' = b ∨
      b.status = .needInit ∧ b'.u.q.items ≠ [] ∧ times b'.u.q.items = times b.u.q.items ++ b'.att.items.map (·.ts)) := by
  unfold tryInit at h
  split at h
  · rename_i hs
    obtain ⟨⟨good, b1⟩, hi, h⟩ := Res.bind_eq_ok.1 h
    obtain ⟨i1, i2, i3, i4, i5, i6, i7⟩ := initialise_any _ _ _ _ _ hi
    dsimp only at h
    split at h
    · rename_i hg
      cases h
      exact ⟨le_of_eq i1, by dsimp only; omega, i2, i3, i4, (nomatch ·), fun _ => .inr ⟨hs, i7 hg⟩⟩
    · rename_i hg
      obtain ⟨w, rfl, s1, s2⟩ := shrunk_any _ _ h (by omega)
      refine ⟨by show w.frm.frames.length ≤ _; omega, le_of_eq s1.symm, s2.trans i2, i3, i4, fun _ => ⟨i6 (by simpa using hg), s1⟩, fun hc => ?_⟩
      exact absurd ((i5.trans hs).symm.trans hc) (by decide)
  · rename_i hs
    cases h
    exact ⟨le_rfl, h1, rfl, List.suffix_refl _, rfl, fun hc => absurd (hs.symm.trans hc) (by decide), fun _ => .inl ⟨hs, rfl⟩⟩

theorem policy_any (w w' : Win K T) (w0 : Win K T) (p : MargPolicy) (hp : decidePolicy w0 = .ok p) (hl : w.frm.frames.length = w0.frm.frames.length)
    (hs : w.frm.maxWindowSize = w0.frm.maxWindowSize) (hlt : w.frm.frames.length < two32) (hm : w.marginalize p = .ok w') (h1 : 1 ≤ w.frm.frames.length) :
    1 ≤ w'.frm.frames.length ∧ w'.frm.frames.length ≤ w.frm.frames.length ∧
    (w'.frm.frames.length ≤ w.frm.maxWindowSize ∨ w'.frm.frames.length + 1 = w.frm.frames.length) := by
  have h2 : p = .noMarg ∨ 2 ≤ w0.frm.frames.length := by
    unfold decidePolicy at hp
    split at hp
    · split at hp
      · rename_i b sn rest hr
        right
        have := congrArg List.length hr
        simp at this
        omega
      · cases hp
    · cases hp; exact .inl rfl
  by_cases hno : p = .noMarg
  · subst hno
    cases hm
    refine ⟨h1, le_rfl, .inl ?_⟩
    by_contra hc
    unfold decidePolicy at hp
    rw [if_pos (by unfold FrameMgr.needMarginalize; rw [← hl, ← hs]; simpa using hc)] at hp
    split at hp
    · obtain ⟨key, _, hk⟩ := Res.bind_eq_ok.1 hp
      cases key <;> cases hk
    · cases hp
  · have h2' := h2.resolve_left hno
    obtain ⟨d, hd⟩ : ∃ d, dropIndex w.frm.frames.length p = some d := by
      cases p with
      | noMarg => exact absurd rfl hno
      | margOldest => exact ⟨_, rfl⟩
      | margSubnew => exact ⟨_, rfl⟩
      | margNewest => exact ⟨_, rfl⟩
    have := (C43_window w w' p d (by omega) hlt hd hm).1
    omega

theorem tryUpdate_any (env : Env K) (g : Vec3 K) (b b' : Backend K T) (ts : T) (h : b.tryUpdate env g ts = .ok b') (h1 : 1 ≤ b.u.w.frm.frames.length)
    (hlt : b.u.w.frm.frames.length < two32) :
    b'.u.w.frm.frames.length ≤ b.u.w.frm.frames.length ∧ b'.u.w.frm.maxWindowSize = b.u.w.frm.maxWindowSize ∧ b'.att.items = b.att.items ∧
    (b.status = .needInit → b' = b) ∧
    (b.status = .initialized → times b'.u.q.items = times (b.u.q.resetOrigin ts b.loader.imuPeriod).1.items) ∧
    (b'.status = .initialized → b'.u.q.items ≠ [] ∧
      (b'.u.w.frm.frames.length ≤ b.u.w.frm.maxWindowSize ∨ b'.u.w.frm.frames.length + 1 = b.u.w.frm.frames.length)) ∧
    (b.status = .initialized → b'.status = .needInit → b'.u.w.frm.frames.length = 1) := by
  have tt : ∀ a c : List (PropItem K T), a.map sample = c.map sample → times a = times c := by
    intro a c h
    have := congrArg (List.map (fun x : Vec3 K × Vec3 K × T => x.2.2)) h
    simpa [List.map_map, Function.comp_def, sample, times] using this
  unfold tryUpdate at h
  split at h
  · rename_i hs
    cases h
    exact ⟨le_rfl, rfl, rfl, fun _ => rfl, fun hc => absurd (hs.symm.trans hc) (by decide), fun hc => absurd (hs.symm.trans hc) (by decide),
      fun hc => absurd (hs.symm.trans hc) (by decide)⟩
  · rename_i hs
    split at h
    · obtain ⟨⟨good, u⟩, hu, h⟩ := Res.bind_eq_ok.1 h
      obtain ⟨u1, u2, u3, u4⟩ := update_any _ _ _ _ _ _ _ _ _ hu
      dsimp only at h
      split at h
      · rename_i hg
        obtain ⟨w, hw, h⟩ := Res.bind_eq_ok.1 h
        cases h
        obtain ⟨v1, v2⟩ := u4 hg
        obtain ⟨p1, p2, p3⟩ := policy_any u.w w b.u.w u.policy v2 u2 u3 (by omega) hw (by omega)
        refine ⟨by dsimp only; omega, (marginalize_keep _ _ _ hw).2.trans u3, rfl, fun hc => absurd (hs.symm.trans hc) (by decide), fun _ => tt _ _ u1, fun _ => ⟨?_, ?_⟩,
          fun _ hc => absurd (hs.symm.trans hc) (by decide)⟩
        · intro hc
          dsimp only at hc
          rw [hc] at u1
          exact v1 (List.map_eq_nil_iff.1 u1.symm)
        · dsimp only
          rw [← u2, ← u3]
          exact p3
      · obtain ⟨w, rfl, s1, s2⟩ := shrunk_any _ _ h (by dsimp only; omega)
        exact ⟨by show w.frm.frames.length ≤ _; omega, s2.trans u3, rfl, fun hc => absurd (hs.symm.trans hc) (by decide), fun _ => tt _ _ u1, (nomatch ·), fun _ _ => s1⟩
    · cases h

theorem cleanAtt_any (b b' : Backend K T) (h : b.cleanAtt = .ok b') :
    b'.u = b.u ∧ b'.status = b.status ∧ b'.att.items <:+ b.att.items ∧ b'.att.items.getLast? = b.att.items.getLast? := by
  unfold cleanAtt at h
  split at h
  · obtain ⟨_, _, h⟩ := Res.bind_eq_ok.1 h
    obtain ⟨att, hc, h⟩ := Res.bind_eq_ok.1 h
    cases h
    exact ⟨rfl, rfl, clean_any _ _ _ _ hc⟩
  · cases h
    exact ⟨rfl, rfl, List.suffix_refl _, rfl⟩

end Backend
end Vio
