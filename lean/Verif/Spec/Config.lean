/-
Specification of configuration files: what a text file of numbers says.  Uses only the scanner `numGet` of the C++ library and the notion of a line.
-/
import Verif.Model.Config

namespace Vio.ConfSpec

variable {K : Type}

/-- The text starts with these numbers, separated by spaces. -/
inductive Nums (numGet : List Char → K × Bool × List Char) : List Char → List K → Prop
  | nil (text : List Char) : Nums numGet text []
  | cons (text rest : List Char) (v : K) (vs : List K) (hne : text.dropWhile isSpace ≠ []) (hget : numGet (text.dropWhile isSpace) = (v, true, rest))
      (h : Nums numGet rest vs) : Nums numGet text (v :: vs)

/-- The text holds these numbers, separated by spaces, and nothing else but spaces. -/
inductive AllNums (numGet : List Char → K × Bool × List Char) : List Char → List K → Prop
  | nil (text : List Char) (h : text.dropWhile isSpace = []) : AllNums numGet text []
  | cons (text rest : List Char) (v : K) (vs : List K) (hne : text.dropWhile isSpace ≠ []) (hget : numGet (text.dropWhile isSpace) = (v, true, rest))
      (h : AllNums numGet rest vs) : AllNums numGet text (v :: vs)

/-- The value at a place of the memory of a matrix: Eigen stores columns one after the other. -/
def memory (m : DMat K) (k : Nat) : K := m.e (k % m.rows) (k / m.rows)

/-- The file holds an `r x c` table: `r` lines with at least `c` numbers each, then the end of the file or an empty line. -/
def Table (numGet : List Char → K × Bool × List Char) (file : List Char) (r c : Nat) (v : Nat → Nat → K) : Prop :=
  ∃ ls tail, getLines file = ls ++ tail ∧ ls.length = r ∧ (tail = [] ∨ ∃ t, tail = [] :: t) ∧
    ∀ i l, ls[i]? = some l → l ≠ [] ∧ Nums numGet l ((List.range c).map (v i))

/-- What the file system says about a table: `none` if the file cannot be opened. -/
def Entry (numGet : List Char → K × Bool × List Char) (fs : String → Option (List Char)) (name : String) (r c : Nat) : Option (Nat → Nat → K) → Prop
  | none => fs name = none
  | some v => ∃ file, fs name = some file ∧ Table numGet file r c v

end Vio.ConfSpec
