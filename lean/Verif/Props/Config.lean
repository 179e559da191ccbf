/-
Properties C64 - C66: configuration files.
-/
import Verif.Spec.Config

set_option linter.unusedSectionVars false

namespace Vio
open ConfSpec

variable {K : Type} [Add K] [Sub K] [Mul K] [Neg K] [Div K] [Zero K] [One K] [ScalarFn K]

namespace Conf

theorem setEntry_ok (m : DMat K) (i j : Nat) (v : K) (hi : i < m.rows) (hj : j < m.cols) :
    setEntry m i j v = .ok ⟨m.rows, m.cols, fun x y => if x = i ∧ y = j then v else m.e x y⟩ := by
  unfold setEntry; rw [if_pos ⟨hi, hj⟩]

/-- A row of a line that holds at least some numbers: those are stored, the other rows and the columns outside the range stay.  The stream may hold fewer numbers. -/
theorem readRow_spec (lib : ConfLib K) (row n : Nat) : ∀ (col : Nat) (s : SStream) (m : DMat K), row < m.rows → col + n ≤ m.cols →
    ∃ m', readRow lib row n col s m = .ok m' ∧ m'.rows = m.rows ∧ m'.cols = m.cols ∧
      (∀ x y, (x ≠ row ∨ y < col ∨ col + n ≤ y) → m'.e x y = m.e x y) ∧
      (∀ vs : List K, Nums lib.numGet s.rest vs → (s.good = true ∨ vs = []) → ∀ k v, k < n → vs[k]? = some v → m'.e row (col + k) = v) := by
  induction n with
  | zero => intro col s m _ _; exact ⟨m, rfl, rfl, rfl, fun _ _ _ => rfl, fun _ _ _ k v hk => absurd hk (Nat.not_lt_zero _)⟩
  | succ n ih =>
    intro col s m hr hc
    have h1 := setEntry_ok m row col (extract lib s (m.e row col)).1 hr (by omega)
    obtain ⟨m', e1, e2, e3, e4, e5⟩ := ih (col + 1) (extract lib s (m.e row col)).2
      ⟨m.rows, m.cols, fun x y => if x = row ∧ y = col then (extract lib s (m.e row col)).1 else m.e x y⟩ hr (by show col + 1 + n ≤ m.cols; omega)
    refine ⟨m', ?_, e2, e3, ?_, ?_⟩
    · rw [readRow]; rw [h1, Res.bind_ok]; exact e1
    · intro x y h
      rw [e4 x y (by omega)]
      exact if_neg (by omega)
    · intro vs hv hg k v hk hkv
      cases hv with
      | nil => simp at hkv
      | cons _ rest v0 vs hne hget hrest =>
        have hgood : s.good = true := by rcases hg with hg | hg; exact hg; cases hg
        have hx : extract lib s (m.e row col) = (v0, ⟨rest, !rest.isEmpty⟩) := by
          unfold extract
          simp [hgood, hget, hne]
        cases k with
        | zero =>
          simp only [List.getElem?_cons_zero, Option.some.injEq] at hkv
          rw [Nat.add_zero, e4 row col (.inr (.inl (by omega)))]
          show (if row = row ∧ col = col then (extract lib s (m.e row col)).1 else _) = v
          rw [if_pos ⟨rfl, rfl⟩, hx]
          exact hkv
        | succ k =>
          rw [hx] at e5
          have := e5 vs hrest (by
            cases hrest with
            | nil => exact .inr rfl
            | cons _ r2 v2 vs2 hne2 _ _ =>
              left
              have : rest ≠ [] := by rintro rfl; exact hne2 rfl
              simp [this]) k v (by omega) (by simpa using hkv)
          rw [← this]
          congr 1
          omega

/-- A stream that is not good leaves the matrix alone. -/
theorem readRow_bad (lib : ConfLib K) (row n : Nat) : ∀ (col : Nat) (t : List Char) (m : DMat K), row < m.rows → col + n ≤ m.cols →
    ∃ m', readRow lib row n col ⟨t, false⟩ m = .ok m' ∧ ∀ x y, m'.e x y = m.e x y := by
  induction n with
  | zero => intro col t m _ _; exact ⟨m, rfl, fun _ _ => rfl⟩
  | succ n ih =>
    intro col t m hr hc
    have h1 := setEntry_ok m row col (m.e row col) hr (by omega)
    obtain ⟨m', e1, e2⟩ := ih (col + 1) t ⟨m.rows, m.cols, fun x y => if x = row ∧ y = col then m.e row col else m.e x y⟩ hr (by show col + 1 + n ≤ m.cols; omega)
    refine ⟨m', ?_, ?_⟩
    · rw [readRow, show extract lib ⟨t, false⟩ (m.e row col) = (m.e row col, ⟨t, false⟩) from rfl]
      dsimp only
      rw [h1, Res.bind_ok]
      exact e1
    · intro x y
      rw [e2]
      show (if x = row ∧ y = col then m.e row col else m.e x y) = m.e x y
      split
      · rename_i h; rw [h.1, h.2]
      · rfl

/-- A line that runs out of numbers leaves the columns behind them alone. -/
theorem readRow_ends (lib : ConfLib K) (row n : Nat) : ∀ (col : Nat) (s : SStream) (m : DMat K), row < m.rows → col + n ≤ m.cols →
    ∀ m', readRow lib row n col s m = .ok m' → ∀ vs : List K, AllNums lib.numGet s.rest vs → (s.good = true ∨ vs = []) →
      ∀ k, vs.length ≤ k → k < n → m'.e row (col + k) = m.e row (col + k) := by
  induction n with
  | zero => intro col s m _ _ m' _ vs _ _ k _ hk; omega
  | succ n ih =>
    intro col s m hr hc m' hm vs hv hg k hk hkn
    by_cases hgood : s.good = true
    swap
    · obtain ⟨t, g⟩ := s
      obtain rfl : g = false := by simpa using hgood
      obtain ⟨m1, e1, e2⟩ := readRow_bad lib row (n + 1) col t m hr hc
      rw [hm] at e1
      cases e1
      exact e2 _ _
    rw [readRow, setEntry_ok m row col _ hr (by omega), Res.bind_ok] at hm
    cases hv with
    | nil _ hsp =>
      have hx : extract lib s (m.e row col) = (m.e row col, ⟨[], false⟩) := by
        unfold extract
        simp [hgood, hsp]
      rw [hx] at hm
      dsimp only at hm
      obtain ⟨m1, e1, e2⟩ := readRow_bad lib row n (col + 1) [] ⟨m.rows, m.cols, fun x y => if x = row ∧ y = col then m.e row col else m.e x y⟩ hr
        (by show col + 1 + n ≤ m.cols; omega)
      rw [hm] at e1
      cases e1
      rw [e2]
      show (if row = row ∧ col + k = col then m.e row col else _) = _
      split
      · rename_i h; rw [h.2]
      · rfl
    | cons _ rest v0 vs hne hget hrest =>
      have hx : extract lib s (m.e row col) = (v0, ⟨rest, !rest.isEmpty⟩) := by
        unfold extract
        simp [hgood, hget, hne]
      rw [hx] at hm
      dsimp only at hm
      simp only [List.length_cons] at hk
      have := ih (col + 1) ⟨rest, !rest.isEmpty⟩ ⟨m.rows, m.cols, fun x y => if x = row ∧ y = col then v0 else m.e x y⟩ hr (by show col + 1 + n ≤ m.cols; omega)
        m' hm vs hrest (by
          cases hrest with
          | nil => exact .inr rfl
          | cons _ r2 v2 vs2 hne2 _ _ =>
            left
            have : rest ≠ [] := by rintro rfl; exact hne2 rfl
            simp [this]) (k - 1) (by omega) (by omega)
      rw [show col + 1 + (k - 1) = col + k by omega] at this
      rw [this]
      exact if_neg (by omega)

/-- Reading lines that fit into the matrix. -/
theorem readLines_spec (lib : ConfLib K) (cols : Nat) (ls tail : List (List Char)) (ht : tail = [] ∨ ∃ t, tail = [] :: t) : ∀ (row : Nat) (m : DMat K),
    (∀ l ∈ ls, l ≠ []) → row + ls.length ≤ m.rows → cols ≤ m.cols →
    ∃ m', readLines lib cols row m (ls ++ tail) = .ok m' ∧ m'.rows = m.rows ∧ m'.cols = m.cols ∧
      (∀ x y, (x < row ∨ row + ls.length ≤ x ∨ cols ≤ y) → m'.e x y = m.e x y) ∧
      (∀ i l vs, ls[i]? = some l → Nums lib.numGet l vs → ∀ k v, k < cols → vs[k]? = some v → m'.e (row + i) k = v) ∧
      (∀ i l vs, ls[i]? = some l → AllNums lib.numGet l vs → ∀ k, vs.length ≤ k → k < cols → m'.e (row + i) k = m.e (row + i) k) := by
  induction ls with
  | nil =>
    intro row m _ _ _
    refine ⟨m, ?_, rfl, rfl, fun _ _ _ => rfl, fun i l vs h => by simp at h, fun i l vs h => by simp at h⟩
    rcases ht with rfl | ⟨t, rfl⟩
    · rfl
    · simp [readLines]
  | cons l ls ih =>
    intro row m hne hr hc
    simp only [List.length_cons] at hr
    obtain ⟨m1, a1, a2, a3, a4, a5⟩ := readRow_spec lib row cols 0 ⟨l, true⟩ m (by omega) (by omega)
    obtain ⟨m', b1, b2, b3, b4, b5, b6⟩ := ih (row + 1) m1 (fun x hx => hne x (List.mem_cons_of_mem _ hx)) (by omega) (by omega)
    have hl : l.isEmpty = false := by
      have := hne l (List.mem_cons_self ..)
      cases l with
      | nil => exact absurd rfl this
      | cons _ _ => rfl
    refine ⟨m', ?_, b2.trans a2, b3.trans a3, ?_, ?_, ?_⟩
    · rw [List.cons_append, readLines, hl]
      rw [if_neg (by simp), a1, Res.bind_ok]
      exact b1
    · intro x y h
      simp only [List.length_cons] at h
      rw [b4 x y (by omega), a4 x y (by omega)]
    · intro i l' vs hi hv k v hk hkv
      cases i with
      | zero =>
        simp only [List.getElem?_cons_zero, Option.some.injEq] at hi
        subst hi
        rw [Nat.add_zero, b4 row k (.inl (by omega))]
        have := a5 vs hv (.inl rfl) k v hk hkv
        rwa [Nat.zero_add] at this
      | succ i =>
        have := b5 i l' vs (by simpa using hi) hv k v hk hkv
        rw [← this]
        congr 1
        omega
    · intro i l' vs hi hv k hk hkc
      cases i with
      | zero =>
        simp only [List.getElem?_cons_zero, Option.some.injEq] at hi
        subst hi
        rw [Nat.add_zero, b4 row k (.inl (by omega))]
        have := readRow_ends lib row cols 0 ⟨l, true⟩ m (by omega) (by omega) m1 a1 vs hv (.inl rfl) k hk hkc
        rwa [Nat.zero_add] at this
      | succ i =>
        have := b6 i l' vs (by simpa using hi) hv k hk hkc
        rw [show row + (i + 1) = row + 1 + i by omega, this, a4 _ _ (.inl (by omega))]

@[simp] theorem resize_rows (lib : ConfLib K) (m : DMat K) (r c : Nat) : (resize lib m r c).rows = r := by unfold resize; split <;> rfl
@[simp] theorem resize_cols (lib : ConfLib K) (m : DMat K) (r c : Nat) : (resize lib m r c).cols = c := by unfold resize; split <;> rfl

/-! ### C64 -/

/-- C64.  `LoadMatrix` returns false exactly when the file cannot be opened, and then leaves the matrix alone. -/
theorem C64_missing (lib : ConfLib K) (fs : String → Option (List Char)) (name : String) (r c : Nat) (m m' : DMat K) (b : Bool)
    (h : load lib fs name r c m = .ok (b, m')) : (b = false ↔ fs name = none) ∧ (b = false → m' = m) := by
  unfold load at h
  split at h
  · rename_i hn
    cases h
    exact ⟨⟨fun _ => hn, fun _ => rfl⟩, fun _ => rfl⟩
  · rename_i cs hs
    obtain ⟨m1, _, h⟩ := Res.bind_eq_ok.1 h
    cases h
    exact ⟨⟨nofun, fun hn => by rw [hn] at hs; cases hs⟩, nofun⟩

/-- C64.  A file that holds a table of the requested size is loaded exactly. -/
theorem C64_exact (lib : ConfLib K) (fs : String → Option (List Char)) (name : String) (r c : Nat) (m : DMat K) (file : List Char) (v : Nat → Nat → K)
    (hf : fs name = some file) (ht : Table lib.numGet file r c v) :
    ∃ m', load lib fs name r c m = .ok (true, m') ∧ m'.rows = r ∧ m'.cols = c ∧ ∀ i < r, ∀ j < c, m'.e i j = v i j := by
  obtain ⟨ls, tail, h1, h2, h3, h4⟩ := ht
  obtain ⟨m', a1, a2, a3, -, a5, -⟩ := readLines_spec lib c ls tail h3 0 (resize lib m r c)
    (fun l hl => by
      obtain ⟨i, hi⟩ := List.mem_iff_getElem?.1 hl
      exact (h4 i l hi).1) (by simp [h2]) (by simp)
  refine ⟨m', ?_, by simpa using a2, by simpa using a3, ?_⟩
  · unfold load
    rw [hf]
    dsimp only
    rw [h1]
    rw [a1, Res.bind_ok]
  · intro i hi j hj
    obtain ⟨l, hl⟩ : ∃ l, ls[i]? = some l := ⟨ls[i], List.getElem?_eq_getElem (by omega)⟩
    have := a5 i l _ hl (h4 i l hl).2 j (v i j) hj (by simp [hj])
    rwa [Nat.zero_add] at this

/-! ### C65 -/

theorem readRow_out (lib : ConfLib K) (row n col : Nat) (s : SStream) (m : DMat K) (h : m.rows ≤ row) : readRow lib row (n + 1) col s m = .ub .outOfRange := by
  rw [readRow]
  have : setEntry m row col (extract lib s (m.e row col)).1 = .ub .outOfRange := by unfold setEntry; rw [if_neg (by omega)]
  rw [this]
  rfl

theorem readLines_out (lib : ConfLib K) (cols : Nat) (ls : List (List Char)) : ∀ (row : Nat) (m : DMat K), cols + 1 ≤ m.cols → (∀ l ∈ ls, l ≠ []) → m.rows < row + ls.length →
    row ≤ m.rows → ∀ rest, readLines lib (cols + 1) row m (ls ++ rest) = .ub .outOfRange := by
  induction ls with
  | nil => intro row m _ _ h1 h2; simp at h1; omega
  | cons l ls ih =>
    intro row m hc hne h1 h2 rest
    have hl : l.isEmpty = false := by
      have := hne l (List.mem_cons_self ..)
      cases l with
      | nil => exact absurd rfl this
      | cons _ _ => rfl
    rw [List.cons_append, readLines, hl, if_neg (by simp)]
    simp only [List.length_cons] at h1
    by_cases hr : row < m.rows
    · obtain ⟨m1, a1, a2, a3, -⟩ := readRow_spec lib row (cols + 1) 0 ⟨l, true⟩ m hr (by omega)
      rw [a1, Res.bind_ok]
      exact ih (row + 1) m1 (by omega) (fun x hx => hne x (List.mem_cons_of_mem _ hx)) (by omega) (by omega) rest
    · rw [readRow_out lib row cols 0 _ m (by omega)]
      rfl

/-- C65 is false: a file with more than the requested number of non-empty lines writes outside the matrix. -/
theorem C65_too_many_rows (lib : ConfLib K) (fs : String → Option (List Char)) (name : String) (r c : Nat) (m : DMat K) (file : List Char)
    (ls rest : List (List Char)) (hf : fs name = some file) (hl : getLines file = ls ++ rest) (hne : ∀ l ∈ ls, l ≠ []) (hr : r < ls.length) :
    load lib fs name r (c + 1) m = .ub .outOfRange := by
  unfold load
  rw [hf]
  dsimp only
  rw [hl]
  rw [readLines_out lib c ls 0 _ (by simp) hne (by simpa using hr) (by simp) rest]
  rfl

/-- C65, what holds: at most the requested number of lines never writes outside; the numbers present are stored, an entry whose line is missing or whose
line has run out of numbers keeps what the memory held. -/
theorem C65_short_partial (lib : ConfLib K) (fs : String → Option (List Char)) (name : String) (r c : Nat) (m : DMat K) (file : List Char)
    (ls tail : List (List Char)) (hf : fs name = some file) (hl : getLines file = ls ++ tail) (hne : ∀ l ∈ ls, l ≠ []) (hr : ls.length ≤ r)
    (ht : tail = [] ∨ ∃ t, tail = [] :: t) :
    ∃ m', load lib fs name r c m = .ok (true, m') ∧ m'.rows = r ∧ m'.cols = c ∧
      (∀ i l vs, ls[i]? = some l → Nums lib.numGet l vs → ∀ k v, k < c → vs[k]? = some v → m'.e i k = v) ∧
      (∀ i j, ls.length ≤ i → m'.e i j = (resize lib m r c).e i j) ∧
      (∀ i l vs, ls[i]? = some l → AllNums lib.numGet l vs → ∀ k, vs.length ≤ k → k < c → m'.e i k = (resize lib m r c).e i k) := by
  obtain ⟨m', a1, a2, a3, a4, a5, a6⟩ := readLines_spec lib c ls tail ht 0 (resize lib m r c) hne (by simpa using hr) (by simp)
  refine ⟨m', ?_, by simpa using a2, by simpa using a3, ?_, ?_, ?_⟩
  · unfold load
    rw [hf]
    dsimp only
    rw [hl]
    rw [a1, Res.bind_ok]
  · intro i l vs h1 h2 k v h3 h4
    have := a5 i l vs h1 h2 k v h3 h4
    rwa [Nat.zero_add] at this
  · intro i j h
    exact a4 i j (.inr (.inl (by omega)))
  · intro i l vs h1 h2 k h3 h4
    have := a6 i l vs h1 h2 k h3 h4
    rwa [Nat.zero_add] at this

/-- C65.  What the memory held: a matrix with as many entries as requested keeps its memory, place by place, whatever its shape was; any other matrix gets new memory. -/
theorem C65_memory (lib : ConfLib K) (m : DMat K) (r c : Nat) :
    (m.rows * m.cols = r * c → ∀ k < r * c, memory (resize lib m r c) k = memory m k) ∧
      (m.rows * m.cols ≠ r * c → ∀ i j, (resize lib m r c).e i j = lib.junk i j) := by
  constructor
  · intro h k hk
    unfold memory resize
    rw [if_pos h]
    dsimp only
    rw [show k / r * r + k % r = k by rw [Nat.mul_comm]; exact Nat.div_add_mod k r]
  · intro h i j
    unfold resize
    rw [if_neg h]

/-- A scanner for natural numbers. -/
def digitGet (cs : List Char) : ℚ × Bool × List Char :=
  let d := cs.takeWhile Char.isDigit
  (d.foldl (fun n c => 10 * n + (c.toNat - '0'.toNat : Nat)) 0, !d.isEmpty, cs.dropWhile Char.isDigit)

/-- A library for the concrete cases. -/
def exLib : ConfLib ℚ := ⟨digitGet, fun _ _ => 77, fun x => if 0 ≤ x ∧ x.floor < two32 then some x.floor.toNat else none⟩

/-- A file system with a window size of eight and an empty file for the measurement noise. -/
def exFs : String → Option (List Char) := fun n =>
  if n = "c/window_size.txt" then some "8".toList else if n = "c/vision_measure_noise.txt" then some [] else none

/-- C65 is false: an empty file for the measurement noise makes the window size the measurement noise. -/
theorem C65_stale_value : ∃ s, readConfig exLib exFs "c" 1 .init = .ok (some (true, s)) ∧ s.cfg.sigmaVision = 8 ∧ s.cfg.maxFrameNum = 8 := by
  have h : (readConfig exLib exFs "c" 1 .init).check
      (fun o => o.any (fun r => r.1 && decide (r.2.cfg.sigmaVision = 8) && decide (r.2.cfg.maxFrameNum = 8))) = true := by decide +kernel
  obtain ⟨o, h1, h2⟩ := Res.exists_of_check h
  cases o with
  | none => simp at h2
  | some r =>
    obtain ⟨b, s⟩ := r
    simp at h2
    obtain ⟨⟨rfl, h3⟩, h4⟩ := h2
    exact ⟨s, h1, h3, h4⟩

/-- C65_too_many_rows: an extra line with a lone carriage return is enough. -/
example : load exLib (fun _ => some "8\r\n\r\n".toList) "c/window_size.txt" 1 1 (.zero 1 1) = .ub .outOfRange :=
  C65_too_many_rows exLib _ _ 1 0 _ "8\r\n\r\n".toList ["8\r".toList, "\r".toList] [] rfl (by decide) (by decide) (by decide)

/-- C65_short_partial: the second line runs out of numbers after its first one; the two entries behind keep the value they had, here that of another table with six entries. -/
example : (load exLib (fun _ => some "1 2 3\n4 \n".toList) "c/imu_bias_a_g_init.txt" 2 3 ⟨3, 2, fun i j => 10 * i + j⟩).check
    (fun r => decide (r.2.e 1 0 = 4 ∧ r.2.e 1 1 = 1 ∧ r.2.e 1 2 = 21 ∧ r.2.e 0 2 = 3)) = true := by decide +kernel

/-- C65_short_partial: that line. -/
example : AllNums digitGet "4 ".toList [4] := .cons _ " ".toList _ _ (by decide) (by decide +kernel) (.nil _ (by decide))

/-- C64: a table. -/
example : Table digitGet "1 2 3\n4 5 6 7\n".toList 2 3 (fun i j => 3 * i + j + 1) := by
  refine ⟨["1 2 3".toList, "4 5 6 7".toList], [], by decide, rfl, .inl rfl, ?_⟩
  intro i l hi
  match i, hi with
  | 0, hi =>
    simp at hi; subst hi
    refine ⟨by decide, ?_⟩
    refine .cons _ " 2 3".toList _ _ (by decide) (by decide +kernel) (.cons _ " 3".toList _ _ (by decide) (by decide +kernel)
      (.cons _ [] _ _ (by decide) (by decide +kernel) (.nil _)))
  | 1, hi =>
    simp at hi; subst hi
    refine ⟨by decide, ?_⟩
    refine .cons _ " 5 6 7".toList _ _ (by decide) (by decide +kernel) (.cons _ " 6 7".toList _ _ (by decide) (by decide +kernel)
      (.cons _ " 7".toList _ _ (by decide) (by decide +kernel) (.nil _)))
  | i + 2, hi => simp at hi

/-! ### C66 -/

theorem onFile_spec (lib : ConfLib K) (fs : String → Option (List Char)) (name : String) (r c : Nat) (s : St K) (f : DMat K → Res (Config K)) (o : Option (Nat → Nat → K))
    (g : (Nat → Nat → K) → Config K) (ho : Entry lib.numGet fs name r c o)
    (hf : ∀ v m, o = some v → (∀ i < r, ∀ j < c, m.e i j = v i j) → f m = .ok (g v)) :
    ∃ m, onFile lib fs name r c s f = .ok ⟨(o.map g).getD s.cfg, m⟩ := by
  cases o with
  | none =>
    refine ⟨s.temp, ?_⟩
    have hn : fs name = none := ho
    unfold onFile load
    rw [hn]
    rfl
  | some v =>
    obtain ⟨file, h1, h2⟩ := ho
    obtain ⟨m', h3, -, -, h4⟩ := C64_exact lib fs name r c s.temp file v h1 h2
    refine ⟨m', ?_⟩
    unfold onFile
    rw [h3, Res.bind_ok]
    dsimp only
    rw [if_pos rfl, hf v m' rfl h4, Res.bind_ok]
    rfl

/-- Rotation and translation of a 4 x 4 table. -/
def camOf (v : Nat → Nat → K) : Mat3 K × Vec3 K :=
  (⟨⟨v 0 0, v 0 1, v 0 2⟩, ⟨v 1 0, v 1 1, v 1 2⟩, ⟨v 2 0, v 2 1, v 2 2⟩⟩, ⟨v 0 3, v 1 3, v 2 3⟩)

theorem loadCams_spec (lib : ConfLib K) (fs : String → Option (List Char)) (path : String) (cam : Nat → Nat → Nat → K) (k : Nat) (hk : k < two32)
    (hnone : fs (camFile path k) = none) : ∀ (d n : Nat) (s : St K) (fuel : Nat), n + d = k → s.cfg.maxCameraNum = n → d < fuel →
    (∀ i, n ≤ i → i < k → Entry lib.numGet fs (camFile path i) 4 4 (some (cam i))) →
    ∃ m, loadCams lib fs path fuel s = .ok (some ⟨{ s.cfg with
      pbc := s.cfg.pbc ++ (List.range' n d).map (fun i => (camOf (cam i)).2)
      qbc := s.cfg.qbc ++ (List.range' n d).map (fun i => Quat.ofMat (camOf (cam i)).1)
      maxCameraNum := k }, m⟩) := by
  intro d
  induction d with
  | zero =>
    intro n s fuel hn hs hf _
    obtain ⟨fuel, rfl⟩ : ∃ f, fuel = f + 1 := ⟨fuel - 1, by omega⟩
    have hnk : n = k := by omega
    subst hnk
    refine ⟨s.temp, ?_⟩
    rw [loadCams]
    unfold load
    rw [hs, hnone]
    simp [← hs]
  | succ d ih =>
    intro n s fuel hn hs hf hc
    obtain ⟨fuel, rfl⟩ : ∃ f, fuel = f + 1 := ⟨fuel - 1, by omega⟩
    obtain ⟨file, h1, h2⟩ := hc n (by omega) (by omega)
    obtain ⟨m', h3, -, -, h4⟩ := C64_exact lib fs _ 4 4 s.temp file _ h1 h2
    have hcor : corner m' = camOf (cam n) := by
      unfold corner camOf
      simp (discharger := decide) only [h4]
    obtain ⟨m2, h5⟩ := ih (n + 1)
      ⟨{ s.cfg with pbc := s.cfg.pbc ++ [(camOf (cam n)).2], qbc := s.cfg.qbc ++ [Quat.ofMat (camOf (cam n)).1], maxCameraNum := add32 s.cfg.maxCameraNum 1 }, m'⟩ fuel
      (by omega) (by show add32 s.cfg.maxCameraNum 1 = n + 1; rw [hs, add32_of_lt (by omega)]) (by omega) (fun i h6 h7 => hc i (by omega) h7)
    refine ⟨m2, ?_⟩
    rw [loadCams, hs, h3, Res.bind_ok]
    dsimp only
    rw [if_pos rfl, hcor, List.range'_succ]
    rw [hs] at h5
    dsimp only at h5 ⊢
    rw [h5]
    simp

/-- C66.  Every file is missing or holds a table of its size (numbers of frames and tracked points fit into `uint32_t`), cameras 0 to `k - 1` have a file and camera `k` has not:
`ReadConfigParams` succeeds, takes every parameter of a present file from that file, keeps the others, and lists exactly cameras 0 to `k - 1`. -/
theorem C66_read (lib : ConfLib K) (fs : String → Option (List Char)) (path : String) (s : St K) (k fuel : Nat)
    (freq noise bias grav win vis key : Option (Nat → Nat → K)) (cam : Nat → Nat → Nat → K)
    (h1 : Entry lib.numGet fs (path ++ "/imu_frequence.txt") 1 1 freq) (h2 : Entry lib.numGet fs (path ++ "/imu_na_ng_nwa_nwg.txt") 1 4 noise)
    (h3 : Entry lib.numGet fs (path ++ "/imu_bias_a_g_init.txt") 2 3 bias) (h4 : Entry lib.numGet fs (path ++ "/gravity_norm.txt") 1 1 grav)
    (h5 : Entry lib.numGet fs (path ++ "/window_size.txt") 1 1 win) (h6 : Entry lib.numGet fs (path ++ "/vision_measure_noise.txt") 1 1 vis)
    (h7 : Entry lib.numGet fs (path ++ "/keyframe_policy.txt") 1 3 key)
    (hcam : ∀ i < k, Entry lib.numGet fs (camFile path i) 4 4 (some (cam i))) (hk : fs (camFile path k) = none) (hk32 : k < two32) (hfuel : k < fuel)
    (hwin : ∀ v, win = some v → (lib.toU32 (v 0 0)).isSome) (hkey : ∀ v, key = some v → (lib.toU32 (v 0 0)).isSome) :
    ∃ c m, readConfig lib fs path fuel s = .ok (some (true, ⟨c, m⟩)) ∧
      c.period = (freq.map (fun v => lit 1 / v 0 0)).getD s.cfg.period ∧
      c.sigmaA = (noise.map (fun v => v 0 0)).getD s.cfg.sigmaA ∧ c.sigmaG = (noise.map (fun v => v 0 1)).getD s.cfg.sigmaG ∧
      c.sigmaWA = (noise.map (fun v => v 0 2)).getD s.cfg.sigmaWA ∧ c.sigmaWG = (noise.map (fun v => v 0 3)).getD s.cfg.sigmaWG ∧
      c.biasA = (bias.map (fun v => ⟨v 0 0, v 0 1, v 0 2⟩)).getD s.cfg.biasA ∧ c.biasG = (bias.map (fun v => ⟨v 1 0, v 1 1, v 1 2⟩)).getD s.cfg.biasG ∧
      c.gravity = (grav.map (fun v => v 0 0)).getD s.cfg.gravity ∧
      c.maxFrameNum = (win.bind (fun v => lib.toU32 (v 0 0))).getD s.cfg.maxFrameNum ∧
      c.sigmaVision = (vis.map (fun v => v 0 0)).getD s.cfg.sigmaVision ∧
      c.minTracked = (key.bind (fun v => lib.toU32 (v 0 0))).getD s.cfg.minTracked ∧
      c.minParallax = (key.map (fun v => v 0 1)).getD s.cfg.minParallax ∧ c.maxTranslation = (key.map (fun v => v 0 2)).getD s.cfg.maxTranslation ∧
      c.maxFeatures = s.cfg.maxFeatures ∧ c.maxCameraNum = k ∧
      c.pbc = (List.range k).map (fun i => (camOf (cam i)).2) ∧ c.qbc = (List.range k).map (fun i => Quat.ofMat (camOf (cam i)).1) := by
  obtain ⟨m1, e1⟩ := onFile_spec lib fs _ 1 1 s (o := freq) (g := fun v => { s.cfg with period := lit 1 / v 0 0 }) (ho := h1)
    (f := fun m => .ok { s.cfg with period := lit 1 / m.e 0 0 }) (hf := fun v m _ hm => by simp only [hm 0 (by omega) 0 (by omega)])
  obtain ⟨s1, hs1⟩ : ∃ s1, s1 = (⟨(freq.map (fun v => { s.cfg with period := lit 1 / v 0 0 })).getD s.cfg, m1⟩ : St K) := ⟨_, rfl⟩
  rw [← hs1] at e1
  obtain ⟨m2, e2⟩ := onFile_spec lib fs _ 1 4 s1 (o := noise) (g := fun v => { s1.cfg with sigmaA := v 0 0, sigmaG := v 0 1, sigmaWA := v 0 2, sigmaWG := v 0 3 }) (ho := h2)
    (f := fun m => .ok { s1.cfg with sigmaA := m.e 0 0, sigmaG := m.e 0 1, sigmaWA := m.e 0 2, sigmaWG := m.e 0 3 })
    (hf := fun v m _ hm => by simp only [hm 0 (by omega) 0 (by omega), hm 0 (by omega) 1 (by omega), hm 0 (by omega) 2 (by omega), hm 0 (by omega) 3 (by omega)])
  obtain ⟨s2, hs2⟩ : ∃ s2, s2 = (⟨(noise.map (fun v => { s1.cfg with sigmaA := v 0 0, sigmaG := v 0 1, sigmaWA := v 0 2, sigmaWG := v 0 3 })).getD s1.cfg, m2⟩ : St K) := ⟨_, rfl⟩
  rw [← hs2] at e2
  obtain ⟨m3, e3⟩ := onFile_spec lib fs _ 2 3 s2 (o := bias) (g := fun v => { s2.cfg with biasA := ⟨v 0 0, v 0 1, v 0 2⟩, biasG := ⟨v 1 0, v 1 1, v 1 2⟩ }) (ho := h3)
    (f := fun m => .ok { s2.cfg with biasA := ⟨m.e 0 0, m.e 0 1, m.e 0 2⟩, biasG := ⟨m.e 1 0, m.e 1 1, m.e 1 2⟩ })
    (hf := fun v m _ hm => by simp only [hm 0 (by omega) 0 (by omega), hm 0 (by omega) 1 (by omega), hm 0 (by omega) 2 (by omega), hm 1 (by omega) 0 (by omega), hm 1 (by omega) 1 (by omega), hm 1 (by omega) 2 (by omega)])
  obtain ⟨s3, hs3⟩ : ∃ s3, s3 = (⟨(bias.map (fun v => { s2.cfg with biasA := ⟨v 0 0, v 0 1, v 0 2⟩, biasG := ⟨v 1 0, v 1 1, v 1 2⟩ })).getD s2.cfg, m3⟩ : St K) := ⟨_, rfl⟩
  rw [← hs3] at e3
  obtain ⟨m4, e4⟩ := onFile_spec lib fs _ 1 1 s3 (o := grav) (g := fun v => { s3.cfg with gravity := v 0 0 }) (ho := h4)
    (f := fun m => .ok { s3.cfg with gravity := m.e 0 0 }) (hf := fun v m _ hm => by simp only [hm 0 (by omega) 0 (by omega)])
  obtain ⟨s4, hs4⟩ : ∃ s4, s4 = (⟨(grav.map (fun v => { s3.cfg with gravity := v 0 0 })).getD s3.cfg, m4⟩ : St K) := ⟨_, rfl⟩
  rw [← hs4] at e4
  obtain ⟨m5, e5⟩ := loadCams_spec lib fs path cam k hk32 hk k 0 ⟨{ s4.cfg with pbc := [], qbc := [], maxCameraNum := 0 }, s4.temp⟩ fuel (by omega) rfl hfuel
    (fun i _ h => hcam i h)
  obtain ⟨s5, hs5⟩ : ∃ s5, s5 = (⟨{ s4.cfg with
      pbc := [] ++ (List.range' 0 k).map (fun i => (camOf (cam i)).2)
      qbc := [] ++ (List.range' 0 k).map (fun i => Quat.ofMat (camOf (cam i)).1)
      maxCameraNum := k }, m5⟩ : St K) := ⟨_, rfl⟩
  obtain ⟨m6, e6⟩ := onFile_spec lib fs _ 1 1 s5 (o := win) (g := fun v => { s5.cfg with maxFrameNum := (lib.toU32 (v 0 0)).getD 0 }) (ho := h5)
    (f := fun m => do
      let n ← convU32 lib (m.e 0 0)
      .ok { s5.cfg with maxFrameNum := n }) (hf := fun v m hv hm => by
        obtain ⟨n, hn⟩ := Option.isSome_iff_exists.1 (hwin v hv)
        rw [hm 0 (by omega) 0 (by omega), convU32, hn]
        rfl)
  obtain ⟨s6, hs6⟩ : ∃ s6, s6 = (⟨(win.map (fun v => { s5.cfg with maxFrameNum := (lib.toU32 (v 0 0)).getD 0 })).getD s5.cfg, m6⟩ : St K) := ⟨_, rfl⟩
  rw [← hs6] at e6
  obtain ⟨m7, e7⟩ := onFile_spec lib fs _ 1 1 s6 (o := vis) (g := fun v => { s6.cfg with sigmaVision := v 0 0 }) (ho := h6)
    (f := fun m => .ok { s6.cfg with sigmaVision := m.e 0 0 }) (hf := fun v m _ hm => by simp only [hm 0 (by omega) 0 (by omega)])
  obtain ⟨s7, hs7⟩ : ∃ s7, s7 = (⟨(vis.map (fun v => { s6.cfg with sigmaVision := v 0 0 })).getD s6.cfg, m7⟩ : St K) := ⟨_, rfl⟩
  rw [← hs7] at e7
  obtain ⟨m8, e8⟩ := onFile_spec lib fs _ 1 3 s7 (o := key) (g := fun v => { s7.cfg with minTracked := (lib.toU32 (v 0 0)).getD 0, minParallax := v 0 1, maxTranslation := v 0 2 }) (ho := h7)
    (f := fun m => do
      let n ← convU32 lib (m.e 0 0)
      .ok { s7.cfg with minTracked := n, minParallax := m.e 0 1, maxTranslation := m.e 0 2 }) (hf := fun v m hv hm => by
        obtain ⟨n, hn⟩ := Option.isSome_iff_exists.1 (hkey v hv)
        rw [hm 0 (by omega) 0 (by omega), hm 0 (by omega) 1 (by omega), hm 0 (by omega) 2 (by omega), convU32, hn]
        rfl)
  refine ⟨(key.map (fun v => { s7.cfg with minTracked := (lib.toU32 (v 0 0)).getD 0, minParallax := v 0 1, maxTranslation := v 0 2 })).getD s7.cfg, m8, ?_, ?_⟩
  · unfold readConfig readImu readVision
    simp only [e1, e2, e3, e4, Res.bind_ok]
    rw [e5, Res.bind_ok, ← hs5]
    simp only [e6, e7, e8, Res.bind_ok]
  · subst hs7
    subst hs6
    subst hs5
    subst hs4
    subst hs3
    subst hs2
    subst hs1
    have hwb : ∀ d, (win.bind (fun v => lib.toU32 (v 0 0))).getD d = (win.map (fun v => (lib.toU32 (v 0 0)).getD 0)).getD d := by
      intro d
      cases win with
      | none => rfl
      | some v =>
        obtain ⟨n, hn⟩ := Option.isSome_iff_exists.1 (hwin v rfl)
        simp [hn]
    have hkb : ∀ d, (key.bind (fun v => lib.toU32 (v 0 0))).getD d = (key.map (fun v => (lib.toU32 (v 0 0)).getD 0)).getD d := by
      intro d
      cases key with
      | none => rfl
      | some v =>
        obtain ⟨n, hn⟩ := Option.isSome_iff_exists.1 (hkey v rfl)
        simp [hn]
    rw [hwb, hkb]
    clear e1 e2 e3 e4 e5 e6 e7 e8 h1 h2 h3 h4 h5 h6 h7 hwin hkey hwb hkb
    cases freq <;> cases noise <;> cases bias <;> cases grav <;> cases win <;> cases vis <;> cases key <;>
      simp [List.range_eq_range']

/-- C66: only a window size, one camera at the origin. -/
example : (readConfig exLib (fun n => if n = "c/window_size.txt" then some "8\n".toList else if n = "c/T_bc0.txt" then
    some "1 0 0 5\n0 1 0 6\n0 0 1 7\n0 0 0 1".toList else none) "c" 2 .init).check (fun o => o.any (fun r => r.1 && r.2.cfg.maxFrameNum == 8 && r.2.cfg.maxCameraNum == 1 &&
      decide (r.2.cfg.pbc = [⟨5, 6, 7⟩]) && decide (r.2.cfg.sigmaVision = 21739/10000000))) = true := by decide +kernel

end Conf
end Vio
