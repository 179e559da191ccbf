/-
The measurement update is free of undefined behaviour for every solver result when window, features and covariance sizes agree; no law of the scalar arithmetic is used.
-/
import Verif.Props.UpdateDims
import Verif.Props.UpdateState
import Verif.Props.Triang
import Verif.Props.Propagator

set_option linter.unusedSectionVars false

namespace Vio
open Spec WinSpec

variable {K T : Type} [Add K] [Sub K] [Mul K] [Neg K] [Div K] [Zero K] [One K] [ScalarFn K]
  [TimeOps T] [TimeCast T K]

namespace DMat

theorem mul_dims {a b : DMat K} (h : a.cols = b.rows) : ∃ c, a.mul b = .ok c ∧ c.rows = a.rows ∧ c.cols = b.cols := by
  unfold DMat.mul
  rw [if_pos h]
  exact ⟨_, rfl, rfl, rfl⟩

theorem add_dims {a b : DMat K} (h1 : a.rows = b.rows) (h2 : a.cols = b.cols) : ∃ c, a.add b = .ok c ∧ c.rows = a.rows ∧ c.cols = a.cols := by
  unfold DMat.add
  rw [if_pos ⟨h1, h2⟩]
  exact ⟨_, rfl, rfl, rfl⟩

theorem setBlock_def {a : DMat K} {i j r c : Nat} {b : DMat K} (h1 : i + r ≤ a.rows) (h2 : j + c ≤ a.cols) (h3 : b.rows = r) (h4 : b.cols = c) :
    ∃ a', a.setBlock i j r c b = .ok a' ∧ a'.rows = a.rows ∧ a'.cols = a.cols := by
  obtain ⟨a', e1, e2, e3, -⟩ := DMat.setBlock_spec h1 h2 h3 h4
  exact ⟨a', e1, e2, e3⟩

theorem block_def {a : DMat K} {i j r c : Nat} (h1 : i + r ≤ a.rows) (h2 : j + c ≤ a.cols) :
    ∃ b, a.block i j r c = .ok b ∧ b.rows = r ∧ b.cols = c := by
  obtain ⟨a', e1, e2, e3, -⟩ := DMat.block_spec h1 h2
  exact ⟨a', e1, e2, e3⟩

end DMat

namespace Update

/-- The Kalman step is defined whenever the sizes agree. -/
theorem kalman_ok (ext : Ext K) (noise : K) (P hxr : DMat K) (n m : Nat) (h1 : P.rows = n) (h2 : P.cols = n) (h3 : hxr.rows = m) (h4 : hxr.cols = n + 1) :
    ∃ k, kalman ext noise P hxr = .ok k ∧ k.dx.rows = n ∧ k.dx.cols = 1 ∧ k.cov.rows = n ∧ k.cov.cols = n := by
  have e1 : n + 1 - 1 = n := by omega
  unfold kalman
  rw [h3, h4, e1]
  obtain ⟨H, a1, a2, a3⟩ := DMat.block_def (a := hxr) (i := 0) (j := 0) (r := m) (c := n) (by omega) (by omega)
  obtain ⟨r, b1, b2, b3⟩ := DMat.block_def (a := hxr) (i := 0) (j := n) (r := m) (c := 1) (by omega) (by omega)
  rw [a1, Res.bind_ok, b1, Res.bind_ok]
  obtain ⟨PHt, c1, c2, c3⟩ := DMat.mul_dims (a := P) (b := H.transpose) (by rw [h2]; exact a3.symm)
  rw [c1, Res.bind_ok]
  have hPr : PHt.rows = n := by rw [c2, h1]
  have hPc : PHt.cols = m := by rw [c3]; exact a2
  obtain ⟨S, d1, d2, d3⟩ := DMat.mul_dims (a := H) (b := PHt) (by rw [a3, hPr])
  simp only [d1, Res.bind_ok]
  have hSr : (S.addDiag (noise * noise)).rows = m := by show S.rows = m; rw [d2, a2]
  obtain ⟨g, g1, g2, g3⟩ := DMat.mul_dims (a := PHt) (b := invEig ext (S.addDiag (noise * noise))) (by rw [hPc]; exact hSr.symm)
  rw [g1, Res.bind_ok]
  have hgr : g.rows = n := by rw [g2, hPr]
  have hgc : g.cols = m := by rw [g3]; exact hSr
  obtain ⟨x, x1, x2, x3⟩ := DMat.mul_dims (a := g) (b := r) (by rw [hgc, b2])
  rw [x1, Res.bind_ok]
  obtain ⟨I, i1, i2, i3⟩ := DMat.mul_dims (a := g.neg) (b := H) (by show g.cols = H.rows; rw [hgc, a2])
  simp only [i1, Res.bind_ok]
  have hIr : I.rows = n := by rw [i2]; exact hgr
  have hIc : I.cols = n := by rw [i3, a3]
  obtain ⟨N, n1, n2, n3⟩ := DMat.mul_dims (a := I.addDiag 1) (b := P) (by show I.cols = P.rows; rw [hIc, h1])
  simp only [n1, Res.bind_ok]
  have hNr : N.rows = n := by rw [n2]; exact hIr
  have hNc : N.cols = n := by rw [n3, h2]
  obtain ⟨Z, z1, z2, z3⟩ := DMat.add_dims (a := N) (b := N.transpose) (by show N.rows = N.cols; omega) (by show N.cols = N.rows; omega)
  rw [z1, Res.bind_ok]
  exact ⟨_, rfl, by rw [x2, hgr], by rw [x3, b3], by show Z.rows = n; rw [z2, hNr], by show Z.cols = n; rw [z3, hNc]⟩

/-- The compression is defined and keeps the number of columns. -/
theorem compress_ok (env : Env K) (a : DMat K) : ∃ b, compress env a = .ok b ∧ b.cols = a.cols := by
  unfold compress
  split
  · obtain ⟨h, h1, -, -⟩ := DMat.block_def (a := a) (i := 0) (j := 0) (r := a.rows) (c := a.cols - 1) (by omega) (by omega)
    rw [h1, Res.bind_ok]
    exact ⟨_, rfl, rfl⟩
  · exact ⟨_, rfl, rfl⟩

/-- The expansion is defined for a covariance of the right size. -/
theorem expand_ok (junk : Nat → Nat → K) (m : FrameMgr K T) (c : DMat K) (hf : m.frames ≠ []) : ∃ c', expand junk m c = .ok c' := by
  have hl := List.length_pos_iff.2 hf
  unfold expand
  dsimp only
  have hs : imuStateSize = 15 := rfl
  rw [hs]
  generalize hn : (m.extrinsics.length + m.frames.length) * 6 = n
  have hn6 : 6 ≤ n := by omega
  generalize hc0 : c.conservativeResize junk (15 + n) (15 + n) = c0
  have r0 : c0.rows = 15 + n := by rw [← hc0]; rfl
  have s0 : c0.cols = 15 + n := by rw [← hc0]; rfl
  obtain ⟨c1, a1, r1, s1⟩ := DMat.setBlock_def (a := c0) (i := 0) (j := 15 + n - 6) (r := 15 + n) (c := 6) (b := .zero (15 + n) 6) (by omega) (by omega) rfl rfl
  rw [a1, Res.bind_ok]
  obtain ⟨c2, a2, r2, s2⟩ := DMat.setBlock_def (a := c1) (i := 15 + n - 6) (j := 0) (r := 6) (c := 15 + n) (b := .zero 6 (15 + n)) (by omega) (by omega) rfl rfl
  rw [a2, Res.bind_ok]
  obtain ⟨b1, d1, e1, f1⟩ := DMat.block_def (a := c2) (i := 0) (j := 0) (r := 15) (c := 15) (by omega) (by omega)
  rw [d1, Res.bind_ok]
  obtain ⟨b2, d2, e2, f2⟩ := DMat.block_def (a := c2) (i := 0) (j := 15) (r := 15) (c := n - 6) (by omega) (by omega)
  rw [d2, Res.bind_ok]
  obtain ⟨c3, a3, r3, s3⟩ := DMat.setBlock_def (a := c2) (i := 15 + n - 6) (j := 0) (r := 6) (c := 15) (b := (expandJ : DMat K).mulF b1) (by omega) (by omega) rfl f1
  rw [a3, Res.bind_ok]
  obtain ⟨c4, a4, r4, s4⟩ := DMat.setBlock_def (a := c3) (i := 15 + n - 6) (j := 15) (r := 6) (c := n - 6) (b := (expandJ : DMat K).mulF b2) (by omega) (by omega) rfl f2
  rw [a4, Res.bind_ok]
  obtain ⟨b3, d3, e3, f3⟩ := DMat.block_def (a := c4) (i := 15 + n - 6) (j := 0) (r := 6) (c := 15 + n - 6) (by omega) (by omega)
  rw [d3, Res.bind_ok]
  obtain ⟨c5, a5, r5, s5⟩ := DMat.setBlock_def (a := c4) (i := 0) (j := 15 + n - 6) (r := 15 + n - 6) (c := 6) (b := b3.transpose) (by omega) (by omega) f3 e3
  rw [a5, Res.bind_ok]
  obtain ⟨c6, a6, -⟩ := DMat.setBlock_def (a := c5) (i := 15 + n - 6) (j := 15 + n - 6) (r := 6) (c := 6)
    (b := ((expandJ : DMat K).mulF b1).mulF (expandJ : DMat K).transpose) (by omega) (by omega) rfl rfl
  exact ⟨c6, a6⟩

/-- The reduction is defined for a covariance of the right size, with at least two frames unless nothing is dropped. -/
theorem reduce_ok (junk : Nat → Nat → K) (policy : MargPolicy) (m : FrameMgr K T) (c : DMat K) (h2 : policy = .noMarg ∨ 2 ≤ m.frames.length)
    (hr : c.rows = 15 + (m.extrinsics.length + m.frames.length) * 6) (hc : c.cols = 15 + (m.extrinsics.length + m.frames.length) * 6) :
    ∃ c', reduce junk policy m c = .ok c' := by
  cases policy with
  | noMarg => exact ⟨_, rfl⟩
  | margNewest => exact ⟨_, rfl⟩
  | margSubnew =>
    have h2 : 2 ≤ m.frames.length := by rcases h2 with h | h; cases h; exact h
    unfold reduce
    dsimp only
    have hs : imuStateSize = 15 := rfl
    rw [hs]
    generalize hn : 15 + (m.extrinsics.length * 6 + m.frames.length * 6) = n
    obtain ⟨b1, d1, e1, f1⟩ := DMat.block_def (a := c) (i := 0) (j := n - 6) (r := n - 12) (c := 6) (by omega) (by omega)
    rw [d1, Res.bind_ok]
    obtain ⟨c1, a1, r1, s1⟩ := DMat.setBlock_def (a := c) (i := 0) (j := n - 12) (r := n - 12) (c := 6) (b := b1) (by omega) (by omega) e1 f1
    rw [a1, Res.bind_ok]
    obtain ⟨b2, d2, e2, f2⟩ := DMat.block_def (a := c1) (i := n - 6) (j := 0) (r := 6) (c := n - 12) (by omega) (by omega)
    rw [d2, Res.bind_ok]
    obtain ⟨c2, a2, r2, s2⟩ := DMat.setBlock_def (a := c1) (i := n - 12) (j := 0) (r := 6) (c := n - 12) (b := b2) (by omega) (by omega) e2 f2
    rw [a2, Res.bind_ok]
    obtain ⟨b3, d3, e3, f3⟩ := DMat.block_def (a := c2) (i := n - 6) (j := n - 6) (r := 6) (c := 6) (by omega) (by omega)
    rw [d3, Res.bind_ok]
    obtain ⟨c3, a3, r3, s3⟩ := DMat.setBlock_def (a := c2) (i := n - 12) (j := n - 12) (r := 6) (c := 6) (b := b3) (by omega) (by omega) e3 f3
    rw [a3, Res.bind_ok]
    exact ⟨_, rfl⟩
  | margOldest =>
    have h2 : 2 ≤ m.frames.length := by rcases h2 with h | h; cases h; exact h
    unfold reduce
    dsimp only
    have hs : imuStateSize = 15 := rfl
    rw [hs]
    generalize hn : m.extrinsics.length * 6 = n
    generalize hk : m.frames.length * 6 = k
    obtain ⟨b1, d1, e1, f1⟩ := DMat.block_def (a := c) (i := 0) (j := 15 + n + 6) (r := 15 + n) (c := k - 6) (by omega) (by omega)
    rw [d1, Res.bind_ok]
    obtain ⟨c1, a1, r1, s1⟩ := DMat.setBlock_def (a := c) (i := 0) (j := 15 + n) (r := 15 + n) (c := k - 6) (b := b1) (by omega) (by omega) e1 f1
    rw [a1, Res.bind_ok]
    obtain ⟨c2, a2, r2, s2⟩ := DMat.setBlock_def (a := c1) (i := 15 + n) (j := 0) (r := k - 6) (c := 15 + n) (b := b1.transpose) (by omega) (by omega) f1 e1
    rw [a2, Res.bind_ok]
    obtain ⟨b2, d2, e2, f2⟩ := DMat.block_def (a := c2) (i := c2.rows - (k - 6)) (j := c2.cols - (k - 6)) (r := k - 6) (c := k - 6) (by omega) (by omega)
    rw [d2, Res.bind_ok]
    obtain ⟨c3, a3, r3, s3⟩ := DMat.setBlock_def (a := c2) (i := 15 + n) (j := 15 + n) (r := k - 6) (c := k - 6) (b := b2) (by omega) (by omega) e2 f2
    rw [a3, Res.bind_ok]
    exact ⟨_, rfl⟩

/-- Storing is defined for a square covariance of at least 15 rows and a non-empty queue; samples and biases stay. -/
theorem storeCov_ok (s : PropQueue K T) (c : DMat K) (hi : s.items ≠ []) (hr : 15 ≤ c.rows) (hc : c.cols = c.rows) :
    ∃ s', storeCov s c = .ok s' ∧ s'.items.map (fun i => (i.accel, i.gyro, i.ts)) = s.items.map (fun i => (i.accel, i.gyro, i.ts)) := by
  unfold storeCov
  split
  · rename_i h; exact absurd h hi
  · rename_i i0 rest h
    dsimp only
    have hs : imuStateSize = 15 := rfl
    rw [hs]
    obtain ⟨b1, d1, -⟩ := DMat.block_def (a := c) (i := 0) (j := 0) (r := 15) (c := 15) (by omega) (by omega)
    obtain ⟨b2, d2, -⟩ := DMat.block_def (a := c) (i := 0) (j := 15) (r := 15) (c := c.cols - 15) (by omega) (by omega)
    obtain ⟨b3, d3, -⟩ := DMat.block_def (a := c) (i := 15) (j := 15) (r := c.cols - 15) (c := c.cols - 15) (by omega) (by omega)
    rw [d1, Res.bind_ok, d2, Res.bind_ok, d3, Res.bind_ok]
    exact ⟨_, rfl, by rw [h]; rfl⟩

/-- Sizes of everything in the queue: `n` is the size of the camera part. -/
structure QDims (s : PropQueue K T) (n : Nat) : Prop where
  ex : ExDims s n
  cov : ∀ it ∈ s.items, it.imuCov.rows = 15 ∧ it.imuCov.cols = 15
  rows : ∀ it ∈ s.items, it.imuEx.rows = 15
  F : s.F.rows = 15

/-- The part of an item that no propagation changes. -/
def sample (i : PropItem K T) : Vec3 K × Vec3 K × T := (i.accel, i.gyro, i.ts)

end Update

namespace WinSpec

/-- An observation message of a tracker with `nc` cameras: every observation has at least one camera, each camera once. -/
def GoodObs (nc : Nat) (m : FeatMsg K T) : Prop := ∀ o ∈ m.observes, o.norms ≠ [] ∧ (o.norms.map (·.1)).Nodup ∧ ∀ x ∈ o.norms, x.1 < nc

end WinSpec

/-! ### What the filter leaves alone in the window -/

/-- The part of a frame that only the managers change. -/
def Frame.key (f : Frame K T) : Nat × List (Nat × Nat) × Nat × T := (f.addr, f.features, f.id, f.ts)

/-- The window is the same up to point positions and states, poses and extrinsic values. -/
structure KeepWin (w w' : Win K T) : Prop where
  map : w'.feat.map = w.feat.map
  next : w'.feat.next = w.feat.next
  heap : ∀ r, (w'.feat.heap r).id = (w.feat.heap r).id ∧ (w'.feat.heap r).first = (w.feat.heap r).first ∧ (w'.feat.heap r).observes = (w.feat.heap r).observes ∧
    (w'.feat.heap r).observeNum = (w.feat.heap r).observeNum
  frames : w'.frm.frames.map Frame.key = w.frm.frames.map Frame.key
  ext : w'.frm.extrinsics.length = w.frm.extrinsics.length
  size : w'.frm.maxWindowSize = w.frm.maxWindowSize
  addr : w'.frm.nextAddr = w.frm.nextAddr

theorem KeepWin.refl (w : Win K T) : KeepWin w w := ⟨rfl, rfl, fun _ => ⟨rfl, rfl, rfl, rfl⟩, rfl, rfl, rfl, rfl⟩

theorem KeepWin.trans {a b c : Win K T} (h1 : KeepWin a b) (h2 : KeepWin b c) : KeepWin a c := by
  refine ⟨h2.map.trans h1.map, h2.next.trans h1.next, fun r => ?_, h2.frames.trans h1.frames, h2.ext.trans h1.ext, h2.size.trans h1.size, h2.addr.trans h1.addr⟩
  obtain ⟨a1, a2, a3, a4⟩ := h1.heap r
  obtain ⟨b1, b2, b3, b4⟩ := h2.heap r
  exact ⟨b1.trans a1, b2.trans a2, b3.trans a3, b4.trans a4⟩

theorem KeepWin.of_frames (w : Win K T) (m : FrameMgr K T) (h1 : m.frames.map Frame.key = w.frm.frames.map Frame.key) (h2 : m.extrinsics.length = w.frm.extrinsics.length)
    (h3 : m.maxWindowSize = w.frm.maxWindowSize) (h4 : m.nextAddr = w.frm.nextAddr) : KeepWin w { w with frm := m } :=
  ⟨rfl, rfl, fun _ => ⟨rfl, rfl, rfl, rfl⟩, h1, h2, h3, h4⟩

theorem KeepWin.length {w w' : Win K T} (h : KeepWin w w') : w'.frm.frames.length = w.frm.frames.length := by
  have := congrArg List.length h.frames
  simpa using this

theorem KeepWin.get {w w' : Win K T} (h : KeepWin w w') (i : Nat) (fr : Frame K T) (hf : w'.frm.frames[i]? = some fr) :
    ∃ fr0, w.frm.frames[i]? = some fr0 ∧ fr.key = fr0.key := by
  have := congrArg (fun l => l[i]?) h.frames
  simp only [List.getElem?_map, hf, Option.map_some] at this
  cases h0 : w.frm.frames[i]? with
  | none => rw [h0] at this; simp at this
  | some f0 => rw [h0] at this; simp at this; exact ⟨f0, rfl, this⟩

theorem SameBut.keep {w w' : Win K T} (h : Update.SameBut w w') : KeepWin w w' := by
  refine ⟨h.map, h.next, fun r => ?_, by rw [h.frm], by rw [h.frm], by rw [h.frm], by rw [h.frm]⟩
  rw [h.heap r]
  exact ⟨rfl, rfl, rfl, rfl⟩

theorem rel_keep {l : Log K T} {w w' : Win K T} (h : Rel l w) (k : KeepWin w w') : Rel l w' := by
  refine ⟨⟨?_, ?_, ?_, ?_, ?_⟩, h.lt, h.good, ?_, ?_, ?_, ?_⟩
  · rw [k.map]; exact h.wf.nodup
  · intro id r hr; rw [k.map] at hr; rw [k.next]; exact h.wf.lt id r hr
  · intro id r hr; rw [k.map] at hr; rw [(k.heap r).1]; exact h.wf.ids id r hr
  · intro id r hr; rw [k.map] at hr; rw [(k.heap r).2.2.1]; exact h.wf.ne id r hr
  · intro id r hr; rw [k.map] at hr
    unfold Feature.camCount
    rw [(k.heap r).2.2.2, (k.heap r).2.2.1]
    exact h.wf.num id r hr
  · intro id r hr
    rw [k.map] at hr
    obtain ⟨t1, t2, t3, t4⟩ := h.tracks id r hr
    obtain ⟨-, b2, b3, -⟩ := k.heap r
    exact ⟨by rw [b3]; exact t1, by rw [b2]; exact t2, by rw [b2, b3]; exact t3, by rw [b2, b3]; exact t4⟩
  · intro id hr; rw [k.map] at hr; exact h.untracked id hr
  · rw [k.length]; exact h.len
  · intro i fr m hf hm
    obtain ⟨fr0, h0, hk⟩ := k.get i fr hf
    simp only [Frame.key, Prod.mk.injEq] at hk
    obtain ⟨k1, k2, k3, k4⟩ := hk
    obtain ⟨f1, f2, f3, f4⟩ := h.frames i fr0 m h0 hm
    exact ⟨k3.trans f1, k4.trans f2, by rw [k2]; exact f3, by rw [k2, k.map]; exact f4⟩

theorem addrOk_keep {w w' : Win K T} (h : AddrOk w.frm) (k : KeepWin w w') : AddrOk w'.frm := by
  have e : w'.frm.frames.map (·.addr) = w.frm.frames.map (·.addr) := by
    have := congrArg (List.map (fun x : Nat × List (Nat × Nat) × Nat × T => x.1)) k.frames
    simpa [List.map_map, Function.comp_def, Frame.key] using this
  refine ⟨by rw [e]; exact h.nodup, ?_⟩
  intro f hf
  rw [k.addr]
  have : f.addr ∈ w.frm.frames.map (·.addr) := by rw [← e]; exact List.mem_map_of_mem hf
  obtain ⟨f0, h0, e0⟩ := List.mem_map.1 this
  rw [← e0]
  exact h.lt f0 h0

/-! ### What the window relation gives -/

theorem rel_ids {l : Log K T} {w : Win K T} (h : Rel l w) : w.frm.frames.map (·.id) = List.range' l.base w.frm.frames.length := by
  apply List.ext_getElem?
  intro i
  by_cases hi : i < w.frm.frames.length
  · have h1 : w.frm.frames[i]? = some w.frm.frames[i] := List.getElem?_eq_getElem hi
    have h2 : l.msgs[i]? = some (l.msgs[i]'(by rw [← h.len]; exact hi)) := List.getElem?_eq_getElem _
    rw [List.getElem?_map, h1, List.getElem?_range' hi, Option.map_some, (h.frames i _ _ h1 h2).id_eq, Nat.one_mul]
  · rw [List.getElem?_eq_none (by simpa using hi), List.getElem?_eq_none (by simpa using hi)]

theorem rel_winOk {l : Log K T} {w : Win K T} (h : Rel l w) (hne : l.msgs ≠ []) : Update.WinOk w.frm l.base := by
  refine ⟨rel_ids h, by have := h.lt; have := h.len; omega, ?_⟩
  intro hc
  have := h.len
  rw [hc] at this
  exact hne (List.length_eq_zero_iff.1 this.symm)

/-- Every entry of a frame's feature list is managed. -/
theorem rel_frameFeature {l : Log K T} {w : Win K T} (h : Rel l w) (fr : Frame K T) (hf : fr ∈ w.frm.frames) (e : Nat × Nat) (he : e ∈ fr.features) :
    w.feat.map.lookup e.1 = some e.2 ∧ ∃ (i : Nat) (m : FeatMsg K T), w.frm.frames[i]? = some fr ∧ l.msgs[i]? = some m ∧ (report m e.1).isSome = true := by
  obtain ⟨i, hi, hg⟩ := List.mem_iff_getElem.1 hf
  have h1 : w.frm.frames[i]? = some fr := by rw [List.getElem?_eq_getElem hi, hg]
  have h2 : l.msgs[i]? = some (l.msgs[i]'(by rw [← h.len]; exact hi)) := List.getElem?_eq_getElem _
  obtain ⟨-, -, f3, f4⟩ := h.frames i fr _ h1 h2
  have hl : fr.features.lookup e.1 = some e.2 := lookup_of_mem f3 he
  have := f4 e.1
  rw [hl] at this
  split at this
  · rename_i hs
    exact ⟨this.symm, i, _, h1, h2, hs⟩
  · cases this

theorem rel_refsNodup {l : Log K T} {w : Win K T} (h : Rel l w) (fr : Frame K T) (hf : fr ∈ w.frm.frames) : (fr.features.map (·.2)).Nodup := by
  obtain ⟨i, hi, hg⟩ := List.mem_iff_getElem.1 hf
  have h1 : w.frm.frames[i]? = some fr := by rw [List.getElem?_eq_getElem hi, hg]
  have h2 : l.msgs[i]? = some (l.msgs[i]'(by rw [← h.len]; exact hi)) := List.getElem?_eq_getElem _
  have hk := (h.frames i fr _ h1 h2).nodup
  refine List.Nodup.of_map (fun r => (w.feat.heap r).id) ?_
  rw [List.map_map]
  have : fr.features.map ((fun r => (w.feat.heap r).id) ∘ fun x => x.2) = fr.features.map (·.1) := by
    apply List.map_congr_left
    intro e he
    exact h.wf.ids _ _ (rel_frameFeature h fr hf e he).1
  rw [this]; exact hk

/-- Every observation of a managed feature is the report of a message in the window. -/
theorem tracks_report {l : Log K T} {id : Nat} {f : Feature K} (h : Tracks l id f) (j : Nat) (o : Obs K) (ho : f.observes[j]? = some o) :
    ∃ m, l.msgs[f.first + j - l.base]? = some m ∧ report m id = some o ∧ f.first + j < l.base + l.msgs.length := by
  obtain ⟨t1, t2, t3, t4⟩ := h
  have hj : j < f.observes.length := by
    by_contra hc
    rw [List.getElem?_eq_none (by omega)] at ho
    cases ho
  have h2 : l.msgs[f.first + j - l.base]? = some (l.msgs[f.first + j - l.base]'(by omega)) := List.getElem?_eq_getElem _
  refine ⟨_, h2, ?_, by omega⟩
  rw [t4 _ _ h2, if_pos (by omega), show l.base + (f.first + j - l.base) - f.first = j by omega, ho]

theorem tracks_goodObs {l : Log K T} {id : Nat} {f : Feature K} (nc : Nat) (h : Tracks l id f) (hg : ∀ m ∈ l.msgs, GoodObs nc m) (o : Obs K) (ho : o ∈ f.observes) :
    o.norms ≠ [] ∧ o.norms.length ≤ nc ∧ ∀ x ∈ o.norms, x.1 < nc := by
  obtain ⟨j, hj⟩ := List.mem_iff_getElem?.1 ho
  obtain ⟨m, m1, m2, -⟩ := tracks_report h j o hj
  obtain ⟨g1, g2, g3⟩ := hg m (List.mem_of_getElem? m1) o (report_some_mem m2).2
  refine ⟨g1, ?_, g3⟩
  have hsub : o.norms.map (·.1) ⊆ List.range nc := by
    intro c hc
    obtain ⟨x, hx, rfl⟩ := List.mem_map.1 hc
    exact List.mem_range.2 (g3 x hx)
  have := (g2.subperm hsub).length_le
  simpa using this

theorem tracks_total {l : Log K T} {id : Nat} {f : Feature K} (nc : Nat) (h : Tracks l id f) (hg : ∀ m ∈ l.msgs, GoodObs nc m) :
    totalObs f.observes ≤ l.msgs.length * nc := by
  have hle : totalObs f.observes ≤ f.observes.length * nc := by
    have : ∀ os : List (Obs K), (∀ o ∈ os, o.norms.length ≤ nc) → totalObs os ≤ os.length * nc := by
      intro os
      induction os with
      | nil => intro _; simp [totalObs]
      | cons o os ih =>
        intro hos
        have h1 := ih (fun o ho => hos o (by simp [ho]))
        have h2 := hos o (by simp)
        simp only [totalObs, List.map_cons, List.sum_cons, List.length_cons] at h1 ⊢
        rw [Nat.add_mul]; omega
    exact this _ (fun o ho => (tracks_goodObs nc h hg o ho).2.1)
  refine hle.trans (Nat.mul_le_mul_right _ ?_)
  have := h.lo; have := h.hi; omega

theorem tracks_resolves {l : Log K T} {w : Win K T} (hr : Rel l w) {id r : Nat} (hm : w.feat.map.lookup id = some r) (hg : ∀ m ∈ l.msgs, GoodObs w.frm.extrinsics.length m) :
    Update.Resolves w.frm (w.feat.heap r).first 0 (w.feat.heap r).observes := by
  have ht := hr.tracks id r hm
  intro j o ho
  obtain ⟨m, m1, m2, m3⟩ := tracks_report ht j o ho
  refine ⟨?_, (tracks_goodObs _ ht hg o (List.mem_of_getElem? ho)).2.2⟩
  have hlt := hr.lt
  have hlo := ht.lo
  rw [Nat.zero_add, add32_of_lt (by omega)]
  have hi : (w.feat.heap r).first + j - l.base < w.frm.frames.length := by rw [hr.len]; omega
  have h1 : w.frm.frames[(w.feat.heap r).first + j - l.base]? = some w.frm.frames[(w.feat.heap r).first + j - l.base] := List.getElem?_eq_getElem hi
  have hid := (hr.frames _ _ _ h1 m1).id_eq
  rw [((C13_getFrame w.frm l.base (rel_ids hr) (j + (w.feat.heap r).first)).1 (w.frm.frames[(w.feat.heap r).first + j - l.base])).2 ⟨List.getElem_mem _, by rw [hid]; omega⟩]
  rfl

theorem rel_num {l : Log K T} {w : Win K T} (hr : Rel l w) {id r : Nat} (hm : w.feat.map.lookup id = some r) (nc : Nat) (hg : ∀ m ∈ l.msgs, GoodObs nc m)
    (hlt : 2 * (l.msgs.length * nc) < two32) :
    (w.feat.heap r).observeNum = totalObs (w.feat.heap r).observes ∧ 2 * totalObs (w.feat.heap r).observes < two32 := by
  have ht := tracks_total nc (hr.tracks id r hm) hg
  have hn := hr.wf.num id r hm
  have e : (w.feat.heap r).camCount = totalObs (w.feat.heap r).observes := rfl
  rw [e, Nat.mod_eq_of_lt (by omega)] at hn
  exact ⟨hn, by omega⟩

end Vio
