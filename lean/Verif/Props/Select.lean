/-
Properties C50 and C51: feature selection and the layout of the measurement matrix.
-/
import Verif.Props.UpdateCov
import Verif.Props.Triang

set_option linter.unusedSectionVars false

namespace Vio
open Spec WinSpec

variable {K T : Type} [Add K] [Sub K] [Mul K] [Neg K] [Div K] [Zero K] [One K] [ScalarFn K]
  [TimeOps T] [TimeCast T K]

namespace Update

/-! ### C50 -/

/-- Feature `r` of window `w` is triangulated, to the point `p`: the analytic triangulation from its observations and the window's poses succeeds. -/
def Triangulated (ext : Ext K) (w : Win K T) (r : Nat) (p : Vec3 K) : Prop :=
  ∃ vs, featViews w.frm (w.feat.heap r).first 0 (w.feat.heap r).observes = .ok vs ∧
    Triang.analytic ext (vs.map (·.q)) (vs.map (·.p)) (vs.map (·.n)) (w.feat.heap r).pw = .ok (true, p)

/-- Two windows that differ at most in position and status of features. -/
structure SameBut (w w' : Win K T) : Prop where
  frm : w'.frm = w.frm
  map : w'.feat.map = w.feat.map
  next : w'.feat.next = w.feat.next
  heap : ∀ r, w'.feat.heap r = { w.feat.heap r with pw := (w'.feat.heap r).pw, status := (w'.feat.heap r).status }

theorem SameBut.refl (w : Win K T) : SameBut w w := ⟨rfl, rfl, rfl, fun _ => rfl⟩

theorem SameBut.trans {a b c : Win K T} (h1 : SameBut a b) (h2 : SameBut b c) : SameBut a c := by
  refine ⟨h2.frm.trans h1.frm, h2.map.trans h1.map, h2.next.trans h1.next, fun r => ?_⟩
  rw [h2.heap r]
  rw [h1.heap r]

theorem triangulate_spec (ext : Ext K) (w w' : Win K T) (r : Nat) (good : Bool) (h : triangulate ext w r = .ok (good, w')) :
    SameBut w w' ∧ (∀ x, x ≠ r → w'.feat.heap x = w.feat.heap x) ∧
    (good = true → (w'.feat.heap r).status = .solved ∧ Triangulated ext w r (w'.feat.heap r).pw) ∧
    (good = false → (w'.feat.heap r).status = .unsolved ∧ ∀ p, ¬ Triangulated ext w r p) := by
  unfold triangulate at h
  obtain ⟨vs, hv, h⟩ := Res.bind_eq_ok.1 h
  obtain ⟨⟨g, pw⟩, ha, h⟩ := Res.bind_eq_ok.1 h
  simp only [Res.ok.injEq, Prod.mk.injEq] at h
  obtain ⟨rfl, rfl⟩ := h
  refine ⟨⟨rfl, rfl, rfl, ?_⟩, ?_, ?_, ?_⟩
  · intro x
    simp only [FMgr.put]
    split
    · rename_i hx; subst hx; rfl
    · rfl
  · intro x hx
    simp [FMgr.put, hx]
  · intro hg
    subst hg
    simp only [FMgr.put, if_true]
    exact ⟨trivial, vs, hv, ha⟩
  · intro hg
    subst hg
    simp only [FMgr.put, if_true]
    refine ⟨by simp, ?_⟩
    rintro p ⟨vs', hv', ha'⟩
    rw [hv] at hv'
    cases hv'
    rw [ha] at ha'
    cases ha'

/-- Triangulating does not look at other features. -/
theorem Triangulated.congr {ext : Ext K} {w w' : Win K T} {r : Nat} {p : Vec3 K} (hf : w'.frm = w.frm) (hr : w'.feat.heap r = w.feat.heap r) :
    Triangulated ext w' r p ↔ Triangulated ext w r p := by
  unfold Triangulated
  rw [hf, hr]

theorem mem_mapInsert (k v : Nat) (l : List (Nat × Nat)) (e : Nat × Nat) (h : e ∈ mapInsert k v l) : e = (k, v) ∨ e ∈ l := by
  induction l with
  | nil => simpa [mapInsert] using h
  | cons a l ih =>
    unfold mapInsert at h
    split at h
    · simpa using h
    · split at h
      · exact .inr h
      · rcases List.mem_cons.1 h with rfl | h
        · exact .inr (by simp)
        · rcases ih h with h | h
          · exact .inl h
          · exact .inr (List.mem_cons_of_mem _ h)

theorem mapInsert_ne_nil (k v : Nat) (l : List (Nat × Nat)) : mapInsert k v l ≠ [] := by
  cases l with
  | nil => simp [mapInsert]
  | cons a l =>
    unfold mapInsert
    split
    · simp
    · split <;> simp

theorem mapInsert_nodup (k v : Nat) (l : List (Nat × Nat)) (h : (l.map (·.2)).Nodup) (hv : v ∉ l.map (·.2)) : ((mapInsert k v l).map (·.2)).Nodup := by
  induction l with
  | nil => simp [mapInsert]
  | cons a l ih =>
    unfold mapInsert
    simp only [List.map_cons, List.nodup_cons, List.mem_cons, not_or] at h hv
    split
    · simp only [List.map_cons, List.nodup_cons, List.mem_cons, not_or]
      exact ⟨hv, h⟩
    · split
      · simpa using h
      · simp only [List.map_cons, List.nodup_cons]
        refine ⟨?_, ih h.2 hv.2⟩
        intro hm
        obtain ⟨e, he, hea⟩ := List.mem_map.1 hm
        rcases mem_mapInsert k v l e he with rfl | he
        · exact hv.1 hea
        · exact h.1 (hea ▸ List.mem_map_of_mem he)

/-- The selection loop from any point: `w0` is the window the call started with, `done` the references handled so far. -/
theorem selectLoop_spec (env : Env K) (w0 : Win K T) (todo : List (Nat × Nat)) : ∀ (done : List Nat) (w w' : Win K T) (good good' : List (Nat × Nat)) (pos pos' : Nat),
    selectLoop env w good pos todo = .ok (w', good', pos') →
    (done ++ todo.map (·.2)).Nodup → SameBut w0 w → (∀ r, r ∉ done → w.feat.heap r = w0.feat.heap r) →
    (good.map (·.2)).Nodup → (∀ r ∈ good.map (·.2), r ∈ done ∧ (w.feat.heap r).status = .solved ∧ Triangulated env.ext w0 r (w.feat.heap r).pw) →
    ((∃ r ∈ done, ∃ p, Triangulated env.ext w0 r p) → good ≠ []) →
    SameBut w0 w' ∧ (good'.map (·.2)).Nodup ∧
    (∀ r ∈ good'.map (·.2), r ∈ done ++ todo.map (·.2) ∧ (w'.feat.heap r).status = .solved ∧ Triangulated env.ext w0 r (w'.feat.heap r).pw) ∧
    ((∃ r ∈ done ++ todo.map (·.2), ∃ p, Triangulated env.ext w0 r p) → good' ≠ []) ∧
    (∀ r, r ∉ done ++ todo.map (·.2) → w'.feat.heap r = w0.feat.heap r) := by
  induction todo with
  | nil =>
    intro done w w' good good' pos pos' h _ hs hh hn hg hne
    simp only [selectLoop, Res.ok.injEq, Prod.mk.injEq] at h
    obtain ⟨rfl, rfl, rfl⟩ := h
    simp only [List.map_nil, List.append_nil]
    exact ⟨hs, hn, hg, hne, hh⟩
  | cons e todo ih =>
    intro done w w' good good' pos pos' h hnd hs hh hn hg hne
    rw [selectLoop] at h
    obtain ⟨⟨solved, w1⟩, ht, h⟩ := Res.bind_eq_ok.1 h
    dsimp only at h
    obtain ⟨t1, t2, t3, t4⟩ := triangulate_spec env.ext w w1 e.2 solved ht
    have hnd' : ((done ++ [e.2]) ++ todo.map (·.2)).Nodup := by simpa using hnd
    have hed : e.2 ∉ done := by
      intro hc
      rw [List.map_cons, List.nodup_append] at hnd
      exact hnd.2.2 _ hc _ (List.mem_cons_self) rfl
    have hs1 := hs.trans t1
    have hh1 : ∀ r, r ∉ done ++ [e.2] → w1.feat.heap r = w0.feat.heap r := by
      intro r hr
      simp only [List.mem_append, List.mem_singleton, not_or] at hr
      rw [t2 r hr.2, hh r hr.1]
    have hcongr : ∀ p, Triangulated env.ext w e.2 p ↔ Triangulated env.ext w0 e.2 p := fun p => Triangulated.congr hs.frm (hh _ hed)
    have hstay : ∀ r ∈ good.map (·.2), w1.feat.heap r = w.feat.heap r := by
      intro r hr
      apply t2
      rintro rfl
      exact hed (hg _ hr).1
    cases solved with
    | true =>
      simp only [if_true] at h
      obtain ⟨t5, t6⟩ := t3 rfl
      have := ih (done ++ [e.2]) w1 w' _ good' (pos + 1) pos' h hnd' hs1 hh1
        (mapInsert_nodup _ _ _ hn (fun hc => hed (hg _ hc).1)) ?_ (fun _ => mapInsert_ne_nil _ _ _)
      · simpa using this
      · intro r hr
        obtain ⟨x, hx, rfl⟩ := List.mem_map.1 hr
        rcases mem_mapInsert _ _ _ _ hx with rfl | hx
        · exact ⟨by simp, t5, (hcongr _).1 t6⟩
        · have hm := List.mem_map_of_mem (f := (·.2)) hx
          rw [hstay _ hm]
          obtain ⟨g1, g2, g3⟩ := hg _ hm
          exact ⟨List.mem_append_left _ g1, g2, g3⟩
    | false =>
      simp only [Bool.false_eq_true, if_false] at h
      obtain ⟨-, t6⟩ := t4 rfl
      have := ih (done ++ [e.2]) w1 w' good good' pos pos' h hnd' hs1 hh1 hn ?_ ?_
      · simpa using this
      · intro r hr
        rw [hstay r hr]
        obtain ⟨g1, g2, g3⟩ := hg r hr
        exact ⟨List.mem_append_left _ g1, g2, g3⟩
      · rintro ⟨r, hr, p, hp⟩
        rcases List.mem_append.1 hr with hr | hr
        · exact hne ⟨r, hr, p, hp⟩
        · rw [List.mem_singleton] at hr
          subst hr
          exact absurd ((hcongr p).2 hp) (t6 p)

/-- C50, for every random stream, every conversion of the scores and every window whose newest frame `f` links each feature once: the selected features are linked to the
newest frame, their triangulation in this call succeeded and its result is stored, none is selected twice, there are at most `maxUsed`, and if any triangulation
succeeded and `maxUsed` is positive there is at least one.  Nothing but position and status of features changes. -/
theorem C50_selection (env : Env K) (maxUsed : Nat) (w w' : Win K T) (pos pos' : Nat) (sel : List Nat) (f : Frame K T)
    (hb : w.frm.frames.getLast? = some f) (hnd : (f.features.map (·.2)).Nodup) (h : selectGood env maxUsed w pos = .ok (w', sel, pos')) :
    (∀ r ∈ sel, (∃ id, (id, r) ∈ f.features) ∧ (w'.feat.heap r).status = .solved ∧ Triangulated env.ext w r (w'.feat.heap r).pw) ∧
    sel.Nodup ∧ sel.length ≤ maxUsed ∧
    ((∃ id r p, (id, r) ∈ f.features ∧ Triangulated env.ext w r p) → 0 < maxUsed → sel ≠ []) ∧ SameBut w w' := by
  unfold selectGood at h
  rw [back, hb] at h
  simp only [Res.bind_ok] at h
  obtain ⟨⟨w1, good, pos1⟩, hl, h⟩ := Res.bind_eq_ok.1 h
  simp only [Res.ok.injEq, Prod.mk.injEq] at h
  obtain ⟨rfl, rfl, rfl⟩ := h
  obtain ⟨s1, s2, s3, s4, -⟩ := selectLoop_spec env w f.features [] w w1 [] good pos pos1 hl (by simpa using hnd) (.refl w) (fun _ _ => rfl) (by simp) (by simp) (by simp)
  simp only [List.nil_append] at s3 s4
  refine ⟨?_, ?_, List.length_take_le _ _, ?_, s1⟩
  · intro r hr
    have hr' := List.mem_of_mem_take hr
    rw [List.map_reverse, List.mem_reverse] at hr'
    obtain ⟨a, b, c⟩ := s3 r hr'
    obtain ⟨⟨id, r'⟩, hx, hxr⟩ := List.mem_map.1 a
    dsimp only at hxr
    subst hxr
    exact ⟨⟨id, hx⟩, b, c⟩
  · apply List.Nodup.sublist (List.take_sublist _ _)
    rw [List.map_reverse]
    exact List.nodup_reverse.2 s2
  · rintro ⟨id, r, p, hm, hp⟩ hmax hnil
    have hne := s4 ⟨r, List.mem_map.2 ⟨_, hm, rfl⟩, p, hp⟩
    rw [List.take_eq_nil_iff] at hnil
    rcases hnil with h0 | h0
    · omega
    · simp at h0
      exact hne h0

/-! ### C51 -/

/-- Writing the rows of an observation into zero rows gives the same as writing them into an empty two-row matrix; nothing else changes. -/
theorem measNorm_rows (m : FrameMgr K T) (f : Frame K T) (fid front back : Nat) (pw : Vec3 K) (n : Vec2 K) (c row : Nat) (a : DMat K)
    (hc : c < m.extrinsics.length) (hf : m.frames ≠ []) (ha : a.cols = hxCols m + 4) (hrow : row + 2 ≤ a.rows) (h0 : ∀ i < 2, ∀ y, a.e (row + i) y = 0)
    (hp : (poseCols m.extrinsics.length fid front back).2 + 3 ≤ hxCols m + 4 ∧ (poseCols m.extrinsics.length fid front back).1 + 3 ≤ hxCols m + 4) :
    ∃ a' B, measNorm m f fid front back pw row a c n = .ok a' ∧ measNorm m f fid front back pw 0 (.zero 2 (hxCols m + 4)) c n = .ok B ∧
      a'.rows = a.rows ∧ a'.cols = a.cols ∧ (∀ x y, (x < row ∨ row + 2 ≤ x) → a'.e x y = a.e x y) ∧ (∀ i < 2, ∀ y, a'.e (row + i) y = B.e i y) := by
  obtain ⟨e, he⟩ : ∃ e, m.extrinsics[c]? = some e := ⟨_, List.getElem?_eq_getElem hc⟩
  have hcols : hxCols m = 15 + m.extrinsics.length * 6 + (m.frames.length * 6 - 6) := rfl
  have hfl : 0 < m.frames.length := List.length_pos_iff.2 hf
  unfold measNorm
  rw [idx, he]
  simp only [Res.bind_ok, imuStateSize, setB23]
  split
  · generalize poseCols m.extrinsics.length fid front back = pc at hp ⊢
    have key : ∀ (a : DMat K) (row : Nat), a.cols = hxCols m + 4 → row + 2 ≤ a.rows →
        ∃ a', (do
          let a ← a.setBlock row (a.cols - 1) 2 1 ⟨2, 1, fun i _ => if i = 0 then (residual f e pw n).x else (residual f e pw n).y⟩
          let a ← a.setBlock row 0 2 3 (ofMat23 (jacPw f e pw))
          let a ← a.setBlock row pc.1 2 3 (ofMat23 (jacPwb f e pw))
          let a ← a.setBlock row pc.2 2 3 (ofMat23 (jacRwb f e pw))
          let a ← a.setBlock row (3 + 15 + c * 6) 2 3 (ofMat23 (jacPbc f e pw))
          a.setBlock row (3 + 15 + c * 6 + 3) 2 3 (ofMat23 (jacRbc f e pw)) : Res (DMat K)) = .ok a' ∧
        a'.rows = a.rows ∧ a'.cols = a.cols ∧ (∀ x y, (x < row ∨ row + 2 ≤ x) → a'.e x y = a.e x y) ∧
        ∀ i < 2, ∀ y, a'.e (row + i) y =
          if 3 + 15 + c * 6 + 3 ≤ y ∧ y < 3 + 15 + c * 6 + 3 + 3 then (ofMat23 (jacRbc f e pw)).e i (y - (3 + 15 + c * 6 + 3)) else
          if 3 + 15 + c * 6 ≤ y ∧ y < 3 + 15 + c * 6 + 3 then (ofMat23 (jacPbc f e pw)).e i (y - (3 + 15 + c * 6)) else
          if pc.2 ≤ y ∧ y < pc.2 + 3 then (ofMat23 (jacRwb f e pw)).e i (y - pc.2) else
          if pc.1 ≤ y ∧ y < pc.1 + 3 then (ofMat23 (jacPwb f e pw)).e i (y - pc.1) else
          if y < 3 then (ofMat23 (jacPw f e pw)).e i y else
          if hxCols m + 3 = y then (if i = 0 then (residual f e pw n).x else (residual f e pw n).y) else a.e (row + i) y := by
      intro a row ha hrow
      obtain ⟨a1, s1, r1, c1, f1⟩ := DMat.setBlock_spec (a := a) (i := row) (j := a.cols - 1) (r := 2) (c := 1)
        (b := ⟨2, 1, fun i _ => if i = 0 then (residual f e pw n).x else (residual f e pw n).y⟩) hrow (by omega) rfl rfl
      obtain ⟨a2, s2, r2, c2, f2⟩ := DMat.setBlock_spec (a := a1) (i := row) (j := 0) (r := 2) (c := 3) (b := ofMat23 (jacPw f e pw)) (by omega) (by omega) rfl rfl
      obtain ⟨a3, s3, r3, c3, f3⟩ := DMat.setBlock_spec (a := a2) (i := row) (j := pc.1) (r := 2) (c := 3) (b := ofMat23 (jacPwb f e pw)) (by omega) (by omega) rfl rfl
      obtain ⟨a4, s4, r4, c4, f4⟩ := DMat.setBlock_spec (a := a3) (i := row) (j := pc.2) (r := 2) (c := 3) (b := ofMat23 (jacRwb f e pw)) (by omega) (by omega) rfl rfl
      obtain ⟨a5, s5, r5, c5, f5⟩ := DMat.setBlock_spec (a := a4) (i := row) (j := 3 + 15 + c * 6) (r := 2) (c := 3) (b := ofMat23 (jacPbc f e pw)) (by omega) (by omega) rfl rfl
      obtain ⟨a6, s6, r6, c6, f6⟩ := DMat.setBlock_spec (a := a5) (i := row) (j := 3 + 15 + c * 6 + 3) (r := 2) (c := 3) (b := ofMat23 (jacRbc f e pw)) (by omega) (by omega) rfl rfl
      refine ⟨a6, ?_, by omega, by omega, ?_, ?_⟩
      · rw [s1, Res.bind_ok, s2, Res.bind_ok, s3, Res.bind_ok, s4, Res.bind_ok, s5, Res.bind_ok, s6]
      · intro x y hx
        rw [f6, if_neg (by omega), f5, if_neg (by omega), f4, if_neg (by omega), f3, if_neg (by omega), f2, if_neg (by omega), f1, if_neg (by omega)]
      · intro i hi y
        rw [f6, f5, f4, f3, f2, f1]
        have e1 : ∀ j w, (row ≤ row + i ∧ row + i < row + 2 ∧ j ≤ y ∧ y < j + w) = (j ≤ y ∧ y < j + w) := by
          intro j w; apply propext; omega
        simp only [e1]
        simp only [Nat.add_sub_cancel_left, Nat.sub_zero, Nat.zero_le, true_and, Nat.zero_add]
        have e2 : (a.cols - 1 ≤ y ∧ y < a.cols - 1 + 1) = (hxCols m + 3 = y) := by apply propext; omega
        simp only [e2]
    obtain ⟨a', k1, k2, k3, k4, k5⟩ := key a row ha hrow
    obtain ⟨B, l1, l2, l3, l4, l5⟩ := key (.zero 2 (hxCols m + 4)) 0 rfl (Nat.le_refl _)
    refine ⟨a', B, k1, l1, k2, k3, k4, ?_⟩
    intro i hi y
    rw [k5 i hi y]
    have := l5 i hi y
    rw [Nat.zero_add] at this
    rw [this, h0 i hi y]
    rfl
  · refine ⟨a, _, rfl, rfl, rfl, rfl, fun _ _ _ => rfl, ?_⟩
    intro i hi y
    rw [h0 i hi y]
    rfl

/-- The rows written for one observation are those of observation `(c, n)` by frame `f`. -/
def ObsRows (m : FrameMgr K T) (f : Frame K T) (front back : Nat) (pw : Vec3 K) (c : Nat) (n : Vec2 K) (a : DMat K) (row : Nat) : Prop :=
  ∃ B, measNorm m f f.id front back pw 0 (.zero 2 (hxCols m + 4)) c n = .ok B ∧ ∀ i < 2, ∀ y, a.e (row + i) y = B.e i y

theorem measNorms_spec (m : FrameMgr K T) (f : Frame K T) (front back : Nat) (pw : Vec3 K) (hf : m.frames ≠ [])
    (hp : (poseCols m.extrinsics.length f.id front back).2 + 3 ≤ hxCols m + 4 ∧ (poseCols m.extrinsics.length f.id front back).1 + 3 ≤ hxCols m + 4)
    (ns : List (Nat × Vec2 K)) : ∀ (row : Nat) (a : DMat K), (∀ x ∈ ns, x.1 < m.extrinsics.length) → a.cols = hxCols m + 4 → row + 2 * ns.length ≤ a.rows →
      (∀ x y, row ≤ x → a.e x y = 0) →
      ∃ a', measNorms m f f.id front back pw row a ns = .ok (a', row + 2 * ns.length) ∧ a'.rows = a.rows ∧ a'.cols = a.cols ∧
        (∀ x y, x < row → a'.e x y = a.e x y) ∧ (∀ x y, row + 2 * ns.length ≤ x → a'.e x y = 0) ∧
        ∀ k c n, ns[k]? = some (c, n) → ObsRows m f front back pw c n a' (row + 2 * k) := by
  induction ns with
  | nil => intro row a _ _ _ h0; exact ⟨a, rfl, rfl, rfl, fun _ _ _ => rfl, fun x y h => h0 x y h, by simp⟩
  | cons x ns ih =>
    intro row a hx ha hr h0
    obtain ⟨c, n⟩ := x
    simp only [List.length_cons] at hr
    obtain ⟨a1, B, b1, b2, b3, b4, b5, b6⟩ := measNorm_rows m f f.id front back pw n c row a (hx (c, n) (by simp)) hf ha (by omega) (fun i _ y => h0 _ y (by omega)) hp
    obtain ⟨a', d1, d2, d3, d4, d5, d6⟩ := ih (row + 2) a1 (fun z hz => hx z (List.mem_cons_of_mem _ hz)) (by omega) (by omega)
      (fun x y hxy => by rw [b5 x y (by omega), h0 x y (by omega)])
    refine ⟨a', ?_, by omega, by omega, ?_, ?_, ?_⟩
    · rw [measNorms, b1, Res.bind_ok, d1, List.length_cons]
      congr 2
      omega
    · intro x y hxy
      rw [d4 x y (by omega), b5 x y (by omega)]
    · intro x y hxy
      simp only [List.length_cons] at hxy
      exact d5 x y (by omega)
    · intro k c' n' hk
      cases k with
      | zero =>
        simp only [List.getElem?_cons_zero, Option.some.injEq, Prod.mk.injEq] at hk
        obtain ⟨rfl, rfl⟩ := hk
        refine ⟨B, b2, ?_⟩
        intro i hi y
        rw [Nat.mul_zero, Nat.add_zero, d4 _ y (by omega), b6 i hi y]
      | succ k =>
        rw [List.getElem?_cons_succ] at hk
        have := d6 k c' n' hk
        have e : row + 2 * (k + 1) = row + 2 + 2 * k := by omega
        rw [e]
        exact this

/-- All observations of a feature find their frame and their cameras. -/
def Resolves (m : FrameMgr K T) (first : Nat) (i : Nat) (os : List (Obs K)) : Prop :=
  ∀ j o, os[j]? = some o → (m.getFrame (add32 (i + j) first)).isSome = true ∧ ∀ x ∈ o.norms, x.1 < m.extrinsics.length

theorem Resolves.tail {m : FrameMgr K T} {first i : Nat} {o : Obs K} {os : List (Obs K)} (h : Resolves m first i (o :: os)) : Resolves m first (i + 1) os := by
  intro j o' ho
  have := h (j + 1) o' (by simpa using ho)
  rwa [show i + (j + 1) = i + 1 + j by omega] at this

theorem obsViews_iff (m : FrameMgr K T) (f : Frame K T) (ns : List (Nat × Vec2 K)) :
    (∀ vs, obsViews m f ns = .ok vs → vs.length = ns.length ∧ ∀ x ∈ ns, x.1 < m.extrinsics.length) ∧
    ((∀ x ∈ ns, x.1 < m.extrinsics.length) → ∃ vs, obsViews m f ns = .ok vs) := by
  induction ns with
  | nil => exact ⟨by simp [obsViews], fun _ => ⟨[], rfl⟩⟩
  | cons x ns ih =>
    obtain ⟨c, n⟩ := x
    constructor
    · intro vs h
      rw [obsViews] at h
      obtain ⟨e, he, h⟩ := Res.bind_eq_ok.1 h
      obtain ⟨vs', hv, h⟩ := Res.bind_eq_ok.1 h
      cases h
      obtain ⟨h1, h2⟩ := ih.1 vs' hv
      refine ⟨by simp [h1], ?_⟩
      intro x hx
      rcases List.mem_cons.1 hx with rfl | hx
      · by_contra hc
        unfold idx at he
        rw [List.getElem?_eq_none (by simpa using hc)] at he
        cases he
      · exact h2 x hx
    · intro h
      obtain ⟨vs, hv⟩ := ih.2 (fun x hx => h x (List.mem_cons_of_mem _ hx))
      have hc := h (c, n) (by simp)
      rw [obsViews, idx, List.getElem?_eq_getElem hc, hv]
      exact ⟨_, rfl⟩

/-- The views of a feature exist exactly when all its observations resolve, and there is one per camera observation. -/
theorem featViews_iff (m : FrameMgr K T) (first : Nat) (os : List (Obs K)) : ∀ i,
    (∀ vs, featViews m first i os = .ok vs → vs.length = totalObs os ∧ Resolves m first i os) ∧
    (Resolves m first i os → ∃ vs, featViews m first i os = .ok vs) := by
  induction os with
  | nil => intro i; exact ⟨by intro vs h; cases h; exact ⟨rfl, fun j o h => by simp at h⟩, fun _ => ⟨[], rfl⟩⟩
  | cons o os ih =>
    intro i
    constructor
    · intro vs h
      rw [featViews] at h
      obtain ⟨f, hf, h⟩ := Res.bind_eq_ok.1 h
      obtain ⟨v1, hv1, h⟩ := Res.bind_eq_ok.1 h
      obtain ⟨v2, hv2, h⟩ := Res.bind_eq_ok.1 h
      cases h
      obtain ⟨h1, h2⟩ := (ih (i + 1)).1 v2 hv2
      obtain ⟨h3, h4⟩ := (obsViews_iff m f o.norms).1 v1 hv1
      refine ⟨by simp [h1, h3, totalObs], ?_⟩
      intro j o' ho
      cases j with
      | zero =>
        simp only [List.getElem?_cons_zero, Option.some.injEq] at ho
        subst ho
        refine ⟨?_, h4⟩
        rw [Nat.add_zero]
        unfold deref at hf
        cases hg : m.getFrame (add32 i first) with
        | none => rw [hg] at hf; cases hf
        | some _ => rfl
      | succ j =>
        have := h2 j o' (by simpa using ho)
        rwa [show i + (j + 1) = i + 1 + j by omega]
    · intro h
      obtain ⟨vs, hv⟩ := (ih (i + 1)).2 h.tail
      obtain ⟨h1, h2⟩ := h 0 o rfl
      rw [Nat.add_zero] at h1
      obtain ⟨f, hf⟩ := Option.isSome_iff_exists.1 h1
      obtain ⟨v1, hv1⟩ := (obsViews_iff m f o.norms).2 h2
      rw [featViews, hf, deref, Res.bind_ok, hv1, Res.bind_ok, hv]
      exact ⟨_, rfl⟩

/-- Consecutive ids, as the window keeps them (C16): the columns of every frame are inside the matrix. -/
theorem poseCols_bound (m : FrameMgr K T) (b : Nat) (f g l : Frame K T) (hids : m.frames.map (·.id) = List.range' b m.frames.length) (hb : b + m.frames.length ≤ two32)
    (hg : m.frames.head? = some g) (hl : m.frames.getLast? = some l) (hf : f ∈ m.frames) :
    (poseCols m.extrinsics.length f.id g.id l.id).2 + 3 ≤ hxCols m + 4 ∧ (poseCols m.extrinsics.length f.id g.id l.id).1 + 3 ≤ hxCols m + 4 := by
  have hcols : hxCols m = 15 + m.extrinsics.length * 6 + (m.frames.length * 6 - 6) := rfl
  have hpos : 0 < m.frames.length := List.length_pos_iff.2 (List.ne_nil_of_mem hf)
  have hget : ∀ j (h : j < m.frames.length), (m.frames[j]).id = b + j := by
    intro j hj
    have : (m.frames.map (·.id))[j]? = some (m.frames[j]).id := by rw [List.getElem?_map, List.getElem?_eq_getElem hj]; rfl
    rw [hids, List.getElem?_range' hj] at this
    simp only [Option.some.injEq] at this
    omega
  have eg : g.id = b := by
    rw [List.head?_eq_getElem?, List.getElem?_eq_getElem hpos] at hg
    cases hg
    simpa using hget 0 hpos
  have el : l.id = b + (m.frames.length - 1) := by
    rw [List.getLast?_eq_getElem?, List.getElem?_eq_getElem (by omega)] at hl
    cases hl
    exact hget _ (by omega)
  obtain ⟨k, hk, rfl⟩ := List.getElem_of_mem hf
  rw [hget k hk, eg, el]
  unfold poseCols
  split
  · simp only [indexP, indexR]; omega
  · simp only [imuStateSize]
    rw [sub32_of_le (by omega) (by unfold two32 at *; omega)]
    omega

/-- The loop over the frames writes two rows per camera observation, in order. -/
theorem measLoop_spec (m : FrameMgr K T) (ft : Feature K) (b : Nat) (g l : Frame K T) (hids : m.frames.map (·.id) = List.range' b m.frames.length)
    (hb : b + m.frames.length ≤ two32) (hg : m.frames.head? = some g) (hl : m.frames.getLast? = some l) (os : List (Obs K)) :
    ∀ (i row : Nat) (a : DMat K), Resolves m ft.first i os → a.cols = hxCols m + 4 → row + 2 * totalObs os ≤ a.rows → (∀ x y, row ≤ x → a.e x y = 0) →
      ∃ a', measLoop m ft i row a os = .ok (some a') ∧ a'.rows = a.rows ∧ a'.cols = a.cols ∧
        (∀ x y, x < row → a'.e x y = a.e x y) ∧ (∀ x y, row + 2 * totalObs os ≤ x → a'.e x y = 0) ∧
        ∀ j o, os[j]? = some o → ∃ f, m.getFrame (add32 (i + j) ft.first) = some f ∧
          ∀ k c n, o.norms[k]? = some (c, n) → ObsRows m f g.id l.id ft.pw c n a' (row + 2 * (totalObs (os.take j) + k)) := by
  induction os with
  | nil => intro i row a _ _ _ h0; exact ⟨a, rfl, rfl, rfl, fun _ _ _ => rfl, fun x y h => h0 x y h, by simp⟩
  | cons o os ih =>
    intro i row a hres ha hr h0
    obtain ⟨r1, r2⟩ := hres 0 o rfl
    rw [Nat.add_zero] at r1
    obtain ⟨f, hf⟩ := Option.isSome_iff_exists.1 r1
    have hfm := ((C13_getFrame m b hids (add32 i ft.first)).1 f).1 hf
    have hne : m.frames ≠ [] := List.ne_nil_of_mem hfm.1
    have htot : totalObs (o :: os) = o.norms.length + totalObs os := by simp [totalObs]
    rw [htot] at hr
    obtain ⟨a1, b1, b2, b3, b4, b5, b6⟩ := measNorms_spec m f g.id l.id ft.pw hne (poseCols_bound m b f g l hids hb hg hl hfm.1) o.norms row a r2 ha (by omega) h0
    obtain ⟨a', d1, d2, d3, d4, d5, d6⟩ := ih (i + 1) (row + 2 * o.norms.length) a1 hres.tail (by omega) (by omega) b5
    refine ⟨a', ?_, by omega, by omega, ?_, ?_, ?_⟩
    · rw [measLoop]
      simp only [hf]
      rw [front, back]
      rw [← hfm.2]
      simp only [hg, hl, Res.bind_ok, b1, d1]
    · intro x y hx
      rw [d4 x y (by omega), b4 x y hx]
    · intro x y hx
      rw [htot] at hx
      exact d5 x y (by omega)
    · intro j o' ho
      cases j with
      | zero =>
        simp only [List.getElem?_cons_zero, Option.some.injEq] at ho
        subst ho
        refine ⟨f, by rw [Nat.add_zero]; exact hf, ?_⟩
        intro k c n hk
        obtain ⟨B, e1, e2⟩ := b6 k c n hk
        refine ⟨B, e1, ?_⟩
        intro q hq y
        have hkl : k < o.norms.length := by
          by_contra hc
          rw [List.getElem?_eq_none (by omega)] at hk
          simp at hk
        simp only [List.take_zero, totalObs, List.map_nil, List.sum_nil, Nat.zero_add]
        rw [d4 _ y (by omega), e2 q hq y]
      | succ j =>
        rw [List.getElem?_cons_succ] at ho
        obtain ⟨f', h1, h2⟩ := d6 j o' ho
        refine ⟨f', by rw [show i + (j + 1) = i + 1 + j by omega]; exact h1, ?_⟩
        intro k c n hk
        have := h2 k c n hk
        have e : row + 2 * (totalObs ((o :: os).take (j + 1)) + k) = row + 2 * o.norms.length + 2 * (totalObs (os.take j) + k) := by
          simp only [List.take_succ_cons, totalObs, List.map_cons, List.sum_cons]; omega
        rw [e]
        exact this

/-- Window conditions of C51: consecutive ids, at least one frame. -/
structure WinOk (m : FrameMgr K T) (b : Nat) : Prop where
  ids : m.frames.map (·.id) = List.range' b m.frames.length
  lt : b + m.frames.length ≤ two32
  ne : m.frames ≠ []

/-- Feature conditions of C51: the counter is the number of camera observations (C15), which resolve, are at least two, and fit. -/
structure FeatOk (m : FrameMgr K T) (ft : Feature K) : Prop where
  num : ft.observeNum = totalObs ft.observes
  two : 2 ≤ totalObs ft.observes
  lt : 2 * totalObs ft.observes < two32
  res : Resolves m ft.first 0 ft.observes

theorem subRows_eq {m : FrameMgr K T} {ft : Feature K} (h : FeatOk m ft) : subRows ft = 2 * totalObs ft.observes - 3 ∧ 1 ≤ subRows ft := by
  have h2 := h.two
  have hl := h.lt
  have : subRows ft = 2 * totalObs ft.observes - 3 := by
    unfold subRows
    rw [h.num, mul32_of_lt (by omega), sub32_of_le (by omega) (by omega)]
    omega
  exact ⟨this, by omega⟩

/-- C51, one feature: at least one row without wrap-around, exactly `2 * observeNum` rows written, each from one camera observation, and the projected part
has the announced size. -/
theorem C51_feature (ext : Ext K) (m : FrameMgr K T) (ft : Feature K) (b : Nat) (hw : WinOk m b) (hf : FeatOk m ft) :
    1 ≤ subRows ft ∧ subRows ft = 2 * ft.observeNum - 3 ∧
    ∃ a p g l, measFeature ext m ft = .ok (some p) ∧ project ext a = .ok p ∧ p.rows = subRows ft ∧ p.cols = hxCols m + 1 ∧
      a.rows = 2 * ft.observeNum ∧ a.cols = hxCols m + 4 ∧ m.frames.head? = some g ∧ m.frames.getLast? = some l ∧
      ∀ j o, ft.observes[j]? = some o → ∃ f, m.getFrame (add32 j ft.first) = some f ∧
        ∀ k c n, o.norms[k]? = some (c, n) → ObsRows m f g.id l.id ft.pw c n a (2 * (totalObs (ft.observes.take j) + k)) := by
  obtain ⟨e1, e2⟩ := subRows_eq hf
  refine ⟨e2, by rw [hf.num, e1], ?_⟩
  obtain ⟨g, hg⟩ : ∃ g, m.frames.head? = some g := ⟨_, List.head?_eq_some_head hw.ne⟩
  obtain ⟨l, hl⟩ : ∃ l, m.frames.getLast? = some l := ⟨_, List.getLast?_eq_some_getLast hw.ne⟩
  have hm : mul32 ft.observeNum 2 = 2 * totalObs ft.observes := by
    have := hf.lt
    rw [hf.num, mul32_of_lt (by omega)]; omega
  obtain ⟨a, m1, m2, m3, -, -, m6⟩ := measLoop_spec m ft b g l hw.ids hw.lt hg hl ft.observes 0 0 (.zero (mul32 ft.observeNum 2) (hxCols m + 4)) hf.res rfl
    (by simp [hm]) (fun _ _ _ => rfl)
  simp only [DMat.zero_rows, DMat.zero_cols] at m2 m3
  rw [hm] at m2
  have hproj : ∃ p, project ext a = .ok p ∧ p.rows = subRows ft ∧ p.cols = hxCols m + 1 := by
    have := hf.two
    have hcols : hxCols m = 15 + m.extrinsics.length * 6 + (m.frames.length * 6 - 6) := rfl
    unfold project
    obtain ⟨hfm, s1, -⟩ := DMat.block_spec (a := a) (i := 0) (j := 0) (r := a.rows) (c := 3) (by omega) (by omega)
    rw [s1, Res.bind_ok]
    have hr : (applyQt ext hfm a).rows = a.rows := rfl
    have hc : (applyQt ext hfm a).cols = a.cols := rfl
    dsimp only
    rw [if_neg (by omega)]
    obtain ⟨p, s2, s3, s4, -⟩ := DMat.block_spec (a := applyQt ext hfm a) (i := 3) (j := 3) (r := (applyQt ext hfm a).rows - 3) (c := (applyQt ext hfm a).cols - 3) (by omega) (by omega)
    exact ⟨p, s2, by omega, by omega⟩
  obtain ⟨p, p1, p2, p3⟩ := hproj
  refine ⟨a, p, g, l, ?_, p1, p2, p3, by rw [hf.num, m2], m3, hg, hl, ?_⟩
  · unfold measFeature
    rw [m1, Res.bind_ok]
    simp only [p1, Res.bind_ok]
  · intro j o ho
    obtain ⟨f, f1, f2⟩ := m6 j o ho
    rw [Nat.zero_add] at f1
    refine ⟨f, f1, fun k c n hk => ?_⟩
    have := f2 k c n hk
    rwa [Nat.zero_add] at this

/-- Row at which the `k`-th feature starts. -/
def startRow (w : Win K T) (fs : List Nat) (k : Nat) : Nat := ((fs.take k).map (fun r => 2 * (w.feat.heap r).observeNum - 3)).sum

theorem stackLoop_spec (ext : Ext K) (w : Win K T) (b : Nat) (hw : WinOk w.frm b) (fs : List Nat) : ∀ (rc : Nat) (a : DMat K),
    (∀ r ∈ fs, FeatOk w.frm (w.feat.heap r)) → a.cols = hxCols w.frm + 1 → rc + startRow w fs fs.length ≤ a.rows → a.rows < two32 →
    ∃ a', stackLoop ext w rc a fs = .ok (some a') ∧ a'.rows = a.rows ∧ a'.cols = a.cols ∧ (∀ x y, x < rc → a'.e x y = a.e x y) ∧
      ∀ k r, fs[k]? = some r → ∃ p, measFeature ext w.frm (w.feat.heap r) = .ok (some p) ∧ p.rows = 2 * (w.feat.heap r).observeNum - 3 ∧ 1 ≤ p.rows ∧
        ∀ x y, x < p.rows → y < a.cols → a'.e (rc + startRow w fs k + x) y = p.e x y := by
  induction fs with
  | nil => intro rc a _ _ _ _; exact ⟨a, rfl, rfl, rfl, fun _ _ _ => rfl, by simp⟩
  | cons r fs ih =>
    intro rc a hok hc hr hlt
    obtain ⟨g1, g2, -, p, -, -, p1, -, p2, p3, -⟩ := C51_feature ext w.frm (w.feat.heap r) b hw (hok r (by simp))
    have hs : startRow w (r :: fs) (r :: fs).length = (2 * (w.feat.heap r).observeNum - 3) + startRow w fs fs.length := by
      simp [startRow]
    rw [hs] at hr
    obtain ⟨a1, s1, s2, s3, s4⟩ := DMat.setBlock_spec (a := a) (i := rc) (j := 0) (r := subRows (w.feat.heap r)) (c := hxCols w.frm + 1) (b := p) (by omega) (by omega) p2 p3
    obtain ⟨a', d1, d2, d3, d4, d5⟩ := ih (rc + subRows (w.feat.heap r)) a1 (fun x hx => hok x (List.mem_cons_of_mem _ hx)) (by omega) (by omega) (by omega)
    refine ⟨a', ?_, by omega, by omega, ?_, ?_⟩
    · rw [stackLoop]
      have e32 : add32 rc (subRows (w.feat.heap r)) = rc + subRows (w.feat.heap r) := add32_of_lt (by omega)
      rw [p1, Res.bind_ok]
      dsimp only
      rw [s1, Res.bind_ok, e32]
      exact d1
    · intro x y hx
      rw [d4 x y (Nat.lt_add_right _ hx), s4, if_neg (fun h => absurd h.1 (Nat.not_le.2 hx))]
    · intro k r' hk
      cases k with
      | zero =>
        simp only [List.getElem?_cons_zero, Option.some.injEq] at hk
        subst hk
        refine ⟨p, p1, by omega, by omega, ?_⟩
        intro x y hx hy
        simp only [startRow, List.take_zero, List.map_nil, List.sum_nil, Nat.add_zero]
        rw [d4 _ y (by omega), s4, if_pos (by omega)]
        simp
      | succ k =>
        rw [List.getElem?_cons_succ] at hk
        obtain ⟨p', q1, q2, q3, q4⟩ := d5 k r' hk
        refine ⟨p', q1, q2, q3, ?_⟩
        intro x y hx hy
        have e : rc + startRow w (r :: fs) (k + 1) + x = rc + subRows (w.feat.heap r) + startRow w fs k + x := by
          simp only [startRow, List.take_succ_cons, List.map_cons, List.sum_cons]; omega
        rw [e]
        exact q4 x y hx (by omega)

theorem hxRows_eq (w : Win K T) (fs : List Nat) (hok : ∀ r ∈ fs, FeatOk w.frm (w.feat.heap r)) (hlt : startRow w fs fs.length < two32) :
    hxRows w fs = startRow w fs fs.length := by
  have key : ∀ n, n + startRow w fs fs.length < two32 → fs.foldl (fun n r => add32 n (subRows (w.feat.heap r))) n = n + startRow w fs fs.length := by
    clear hlt
    induction fs with
    | nil => intro n _; simp [startRow]
    | cons r fs ih =>
      intro n hn
      have hs : startRow w (r :: fs) (r :: fs).length = (2 * (w.feat.heap r).observeNum - 3) + startRow w fs fs.length := by
        simp [startRow]
      rw [hs] at hn ⊢
      have hr := hok r (by simp)
      have := (subRows_eq hr).1
      have e : subRows (w.feat.heap r) = 2 * (w.feat.heap r).observeNum - 3 := by rw [hr.num]; exact this
      rw [List.foldl_cons, add32_of_lt (by omega), ih (fun x hx => hok x (List.mem_cons_of_mem _ hx)) _ (by omega)]
      omega
  have := key 0 (by omega)
  unfold hxRows
  omega

/-- C51, the stack: the matrix has exactly the rows of all features, the `k`-th feature fills the rows from `startRow k` to `startRow (k + 1)`. -/
theorem C51_stack (ext : Ext K) (w : Win K T) (b : Nat) (hw : WinOk w.frm b) (fs : List Nat) (hok : ∀ r ∈ fs, FeatOk w.frm (w.feat.heap r))
    (hlt : startRow w fs fs.length < two32) :
    ∃ a, stackLoop ext w 0 (.zero (hxRows w fs) (hxCols w.frm + 1)) fs = .ok (some a) ∧ a.rows = startRow w fs fs.length ∧ a.cols = hxCols w.frm + 1 ∧
      ∀ k r, fs[k]? = some r → startRow w fs (k + 1) = startRow w fs k + (2 * (w.feat.heap r).observeNum - 3) ∧
        ∃ p, measFeature ext w.frm (w.feat.heap r) = .ok (some p) ∧ p.rows = 2 * (w.feat.heap r).observeNum - 3 ∧ 1 ≤ p.rows ∧
          ∀ x y, x < p.rows → y < a.cols → a.e (startRow w fs k + x) y = p.e x y := by
  have hr := hxRows_eq w fs hok hlt
  obtain ⟨a, h1, h2, h3, -, h5⟩ := stackLoop_spec ext w b hw fs 0 (.zero (hxRows w fs) (hxCols w.frm + 1)) hok rfl (by simp [hr]) (by simpa [hr] using hlt)
  simp only [DMat.zero_rows, DMat.zero_cols] at h2 h3
  refine ⟨a, h1, by omega, h3, ?_⟩
  intro k r hk
  refine ⟨?_, ?_⟩
  · simp only [startRow, List.take_add_one, hk, Option.toList_some, List.map_append, List.map_cons, List.map_nil, List.sum_append, List.sum_cons, List.sum_nil, Nat.add_zero]
  · obtain ⟨p, p1, p2, p3, p4⟩ := h5 k r hk
    refine ⟨p, p1, p2, p3, ?_⟩
    intro x y hx hy
    have := p4 x y hx (by simpa [h3] using hy)
    rwa [Nat.zero_add] at this

/-- C51, for the features that `SelectGoodFeatures` selects: they meet the conditions above once their counters are right (C15) and fit. -/
theorem C51_selected (env : Env K) (maxUsed : Nat) (w w' : Win K T) (pos pos' : Nat) (sel : List Nat) (f : Frame K T)
    (hb : w.frm.frames.getLast? = some f) (hnd : (f.features.map (·.2)).Nodup) (h : selectGood env maxUsed w pos = .ok (w', sel, pos'))
    (hnum : ∀ e ∈ f.features, (w.feat.heap e.2).observeNum = totalObs (w.feat.heap e.2).observes ∧ 2 * totalObs (w.feat.heap e.2).observes < two32) :
    ∀ r ∈ sel, FeatOk w'.frm (w'.feat.heap r) := by
  intro r hr
  obtain ⟨h1, -, -, -, hs⟩ := C50_selection env maxUsed w w' pos pos' sel f hb hnd h
  obtain ⟨⟨id, hid⟩, -, vs, hv, ha⟩ := h1 r hr
  obtain ⟨n1, n2⟩ := hnum _ hid
  obtain ⟨v1, v2⟩ := (featViews_iff w.frm (w.feat.heap r).first (w.feat.heap r).observes 0).1 vs hv
  have h2 : 2 ≤ vs.length := by
    by_contra hc
    rw [Triang.C53_few_views _ _ _ _ _ (by rw [List.length_map]; omega)] at ha
    cases ha
  rw [hs.heap r, hs.frm]
  exact ⟨n1, show 2 ≤ totalObs (w.feat.heap r).observes by omega, n2, v2⟩

/-! ### Examples -/

/-- Two frames, one camera, features 0 and 1 seen by both frames, feature 2 by the newest only. -/
def selWin : Win ℚ ℚ :=
  let o : Obs ℚ := ⟨[(0, ⟨0, 0⟩)]⟩
  ⟨⟨fun r => if r = 2 then ⟨2, 2, [o], 1, 0, .unsolved⟩ else ⟨r, 1, [o, o], 2, 0, .unsolved⟩, 3, [(0, 0), (1, 1), (2, 2)]⟩,
   ⟨[⟨0, [(0, 0), (1, 1)], .one, 0, 0, 1, 0⟩, ⟨1, [(0, 0), (1, 1), (2, 2)], .one, ⟨1, 0, 0⟩, 0, 2, 1⟩], 2, [⟨.one, 0⟩], 4, 0, 0, 1⟩⟩

/-- Decompositions: the singular vector is the point (0, 0, 4), the orthogonal factor is the identity. -/
def selEnv : Env ℚ :=
  ⟨⟨fun _ i => if i = 3 then 1 else if i = 2 then 4 else 0, fun _ v => v, fun _ v => v, fun _ i j => if i = j then 1 else 0, fun _ _ => 1, fun _ i j => if i = j then 1 else 0⟩,
   fun n => 10 - n, id, fun _ _ => 0⟩

example : (selectGood selEnv 1 selWin 0).check (fun r => decide (r.2.1 = [0])) = true := by decide +kernel
example : (selectGood selEnv 5 selWin 0).check (fun r => decide (r.2.1 = [0, 1])) = true := by decide +kernel
example : (selectGood selEnv 0 selWin 0).check (fun r => decide (r.2.1 = [])) = true := by decide +kernel
example : WinOk selWin.frm 1 := ⟨by decide +kernel, by decide +kernel, by decide +kernel⟩
example : FeatOk selWin.frm (selWin.feat.heap 0) := by
  refine ⟨rfl, by decide +kernel, by decide +kernel, ?_⟩
  exact ((featViews_iff selWin.frm (selWin.feat.heap 0).first (selWin.feat.heap 0).observes 0).1 _
    (Res.exists_of_isOk (x := featViews selWin.frm (selWin.feat.heap 0).first 0 (selWin.feat.heap 0).observes) (by decide +kernel)).choose_spec).2
/-- C51: two features with two views each give two rows. -/
example : (selectGood selEnv 5 selWin 0).check (fun r => (measure selEnv r.1 r.2.1).check (fun h => h.any (fun a => a.rows == 2 && a.cols == 28))) = true := by decide +kernel

end Update
end Vio
