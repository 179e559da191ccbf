/-
What a defined call of `Update` did, as one case distinction.
-/
import Verif.Props.UpdateDims

set_option linter.unusedSectionVars false

namespace Vio
namespace Update

variable {K T : Type} [Add K] [Sub K] [Mul K] [Neg K] [Div K] [Zero K] [One K] [ScalarFn K]
  [TimeOps T] [TimeCast T K]

/-- A call of `Update` either fails before anything but the queue's origin and the newest frame's pose is touched, or ends with `finish`, with or without a Kalman step before it. -/
theorem update_inv (env : Env K) (noise : K) (maxUsed : Nat) (g : Vec3 K) (u u' : Upd K T) (ts thr : T) (good : Bool)
    (h : update env noise maxUsed g u ts thr = .ok (good, u')) :
    (good = false ∧ u'.q = (u.q.resetOrigin ts thr).1 ∧ (u'.w.frm = u.w.frm ∨ ∃ b, updateNewest (u.q.resetOrigin ts thr).1 u.w.frm = .ok (b, u'.w.frm))) ∨
    ∃ policy c w fs pos, decidePolicy u.w = .ok policy ∧ constructCov (u.q.resetOrigin ts thr).1 u.w.frm = .ok (true, c) ∧
      updateNewest (u.q.resetOrigin ts thr).1 u.w.frm = .ok (true, w.frm) ∧ good = true ∧
      ((fs = [] ∧ finish env g { u with q := (u.q.resetOrigin ts thr).1, policy := policy, cov := c, w := w, features := fs, pos := pos } = .ok (good, u')) ∨
       ∃ hxr k s1 m1, measure env w fs = .ok (some hxr) ∧ kalman env.ext noise c hxr = .ok k ∧ correct k.dx (u.q.resetOrigin ts thr).1 w.frm = .ok (s1, m1) ∧
         finish env g { u with q := s1, policy := policy, cov := k.cov, w := { w with frm := m1 }, features := fs, pos := pos } = .ok (good, u')) := by
  unfold update at h
  generalize u.q.resetOrigin ts thr = q at h
  obtain ⟨s, found⟩ := q
  dsimp only at h ⊢
  split at h
  · cases h; exact .inl ⟨rfl, rfl, .inl rfl⟩
  obtain ⟨policy, hp, h⟩ := Res.bind_eq_ok.1 h
  obtain ⟨⟨good1, c⟩, hc, h⟩ := Res.bind_eq_ok.1 h
  dsimp only at h hp hc
  split at h
  · cases h; exact .inl ⟨rfl, rfl, .inl rfl⟩
  rename_i hg1
  obtain rfl : good1 = true := by simpa using hg1
  obtain ⟨⟨good', m⟩, hn, h⟩ := Res.bind_eq_ok.1 h
  dsimp only at h
  split at h
  · cases h; exact .inl ⟨rfl, rfl, .inr ⟨_, hn⟩⟩
  rename_i hg2
  obtain rfl : good' = true := by simpa using hg2
  obtain ⟨⟨w, fs, pos⟩, hs, h⟩ := Res.bind_eq_ok.1 h
  dsimp only at h hs hn
  have hw : w.frm = m := by
    unfold selectGood at hs
    obtain ⟨f, _, hs⟩ := Res.bind_eq_ok.1 hs
    obtain ⟨⟨w1, good1, pos1⟩, hl, hs⟩ := Res.bind_eq_ok.1 hs
    cases hs
    exact selectLoop_frm env _ _ _ _ _ _ _ hl
  split at h
  · rename_i he
    have hgood : good = true := by
      have h' := h
      unfold finish at h'
      obtain ⟨_, _, h'⟩ := Res.bind_eq_ok.1 h'
      obtain ⟨_, _, h'⟩ := Res.bind_eq_ok.1 h'
      obtain ⟨_, _, h'⟩ := Res.bind_eq_ok.1 h'
      cases h'; rfl
    exact .inr ⟨policy, c, w, fs, pos, hp, hc, by rw [hw]; exact hn, hgood, .inl ⟨by simpa using he, h⟩⟩
  · obtain ⟨hx, hm, h⟩ := Res.bind_eq_ok.1 h
    split at h
    · cases h
      exact .inl ⟨rfl, rfl, .inr ⟨_, by dsimp only; rw [hw]; exact hn⟩⟩
    · rename_i hxr
      obtain ⟨u1, hu, h⟩ := Res.bind_eq_ok.1 h
      unfold updateState at hu
      obtain ⟨k, hk, hu⟩ := Res.bind_eq_ok.1 hu
      obtain ⟨⟨s1, m1⟩, hco, hu⟩ := Res.bind_eq_ok.1 hu
      dsimp only at hco hu hk
      cases hu
      have hgood : good = true := by
        have h' := h
        unfold finish at h'
        obtain ⟨_, _, h'⟩ := Res.bind_eq_ok.1 h'
        obtain ⟨_, _, h'⟩ := Res.bind_eq_ok.1 h'
        obtain ⟨_, _, h'⟩ := Res.bind_eq_ok.1 h'
        cases h'; rfl
      exact .inr ⟨policy, c, w, fs, pos, hp, hc, by rw [hw]; exact hn, hgood, .inr ⟨hxr, k, s1, m1, hm, hk, hco, h⟩⟩

end Update
end Vio
