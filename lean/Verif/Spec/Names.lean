/-
What it means to give the landmarks other ids: every id is replaced, everything else stays.
-/
import Verif.Model.Backend

namespace Vio

/-- A change of ids.  Features that no map refers to any more are never read again; those marked here keep their id, so that a change of ids can leave a whole state as it is. -/
structure Renaming where
  id : Nat → Nat
  dead : Nat → Bool

instance : CoeFun Renaming (fun _ => Nat → Nat) := ⟨Renaming.id⟩

/-- Different landmarks keep different ids. -/
def Renaming.Injective (ρ : Renaming) : Prop := Function.Injective ρ.id

variable {K T : Type} (ρ : Renaming)

/-- A message with other ids. -/
def FeatMsg.rename (m : FeatMsg K T) : FeatMsg K T := { m with ids := m.ids.map ρ.id }
/-- The loader: the ids of the queued messages. -/
def Loader.rename (l : Loader K T) : Loader K T := { l with featMeas := l.featMeas.map (·.rename ρ) }
/-- A combined message. -/
def Combined.rename (c : Combined K T) : Combined K T := { c with featMeas := c.featMeas.map (·.rename ρ) }
/-- A feature under another id. -/
def Feature.rename (f : Feature K) : Feature K := { f with id := ρ f.id }
/-- The feature manager: the keys of the map and the ids of the features that were ever made (those at used references) and are not marked. -/
def FMgr.rename (s : FMgr K) : FMgr K :=
  { heap := fun r => if r < s.next ∧ ρ.dead r = false then (s.heap r).rename ρ else s.heap r, next := s.next, map := s.map.map (fun e => (ρ e.1, e.2)) }
/-- A frame: the keys of its map. -/
def Frame.rename (f : Frame K T) : Frame K T := { f with features := f.features.map (fun e => (ρ e.1, e.2)) }
/-- The frames of the window. -/
def FrameMgr.rename (m : FrameMgr K T) : FrameMgr K T := { m with frames := m.frames.map (·.rename ρ) }
/-- The window. -/
def Win.rename (w : Win K T) : Win K T := ⟨w.feat.rename ρ, w.frm.rename ρ⟩
/-- The state of the update. -/
def Upd.rename (u : Upd K T) : Upd K T := { u with w := u.w.rename ρ }
/-- The backend. -/
def Backend.rename (b : Backend K T) : Backend K T := { b with loader := b.loader.rename ρ, u := b.u.rename ρ }
/-- The process. -/
def BProc.rename (p : BProc K T) : BProc K T := { p with b := p.b.rename ρ }
/-- A call: only feature messages carry ids.  What a call hands back has none. -/
def BOp.rename : BOp K T → BOp K T
  | .feat m => .feat (m.rename ρ)
  | o => o

/-- The map of the feature manager points to features that were made and are not marked. -/
def FMgr.Made (s : FMgr K) : Prop := (∀ e ∈ s.map, e.2 < s.next ∧ ρ.dead e.2 = false) ∧ ∀ r, ρ.dead r = true → r < s.next

end Vio
