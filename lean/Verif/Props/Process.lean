/-
C122: several backends in one process.
-/
import Verif.Model.Process
import Verif.Props.Backend
import Verif.Lemmas.Agree
import Verif.Lemmas.Loader

set_option linter.unusedSectionVars false

namespace Vio

variable {K T : Type} [Add K] [Sub K] [Mul K] [Neg K] [Div K] [Zero K] [One K] [ScalarFn K]
  [TimeOps T] [TimeCast T K]

open Res

namespace MProc

/-- What belongs to backend `j`. -/
def own {α : Type} (j : Nat) (l : List (Nat × α)) : List α := (l.filter (fun e => e.1 == j)).map (·.2)

/-- The time a fresh backend stores for the message of a call (`timeStampOffset` is -1). -/
def imuTime : COp K T → Option T
  | .call (.imu m) => some (TimeOps.sub m.ts (TimeOps.tlit (-1)))
  | _ => none

/-- The same for images; messages whose numbers of ids and observations differ do not count. -/
def featTime : COp K T → Option T
  | .call (.feat m) => if m.ids.length ≠ m.observes.length then none else some (TimeOps.sub m.ts (TimeOps.tlit (-1)))
  | _ => none

/-- The times of a list of calls increase, and one second less is earlier. -/
def Increasing (ts : List T) : Prop := ts.Pairwise (fun a b => TimeOps.lt a b = true) ∧ ∀ t ∈ ts, TimeOps.lt (TimeOps.sub t (TimeOps.tlit 1)) t = true

/-- The last time is before all others. -/
def Ahead (last : Option T) (ts : List T) : Prop := ∀ a, last = some a → ∀ t ∈ ts, TimeOps.lt a t = true

/-- The call solves nothing and propagates nothing. -/
def isConfig : COp K T → Option (Config K)
  | .config c => some c
  | _ => none

theorem getD_lt {last : Option T} {t : T} (h1 : TimeOps.lt (TimeOps.sub t (TimeOps.tlit 1)) t = true) (h : ∀ a, last = some a → TimeOps.lt a t = true) :
    TimeOps.lt (last.getD (TimeOps.sub t (TimeOps.tlit 1))) t = true := by
  cases last with
  | none => exact h1
  | some a => exact h a rfl

/-- What a call does to the shared part. -/
theorem pstep_shared (hn : TimeOps.isNaN (TimeOps.tlit (-1) : T) = false) (p p' : BProc K T) (op : COp K T) (o : BOut K T) (h : p.pstep op = .ok (p', o))
    (ho : p.b.loader.offset = TimeOps.tlit (-1)) :
    p'.b.loader.offset = TimeOps.tlit (-1) ∧ p'.statics.lastImu = (imuTime op).or p.statics.lastImu ∧ p'.statics.lastFeat = (featTime op).or p.statics.lastFeat ∧
      p'.g = ((isConfig op).map (fun c => (⟨lit 0, lit 0, c.gravity⟩ : Vec3 K))).getD p.g := by
  cases op with
  | config c =>
    rw [BProc.pstep] at h
    obtain ⟨⟨b, g⟩, h1, h⟩ := Res.bind_eq_ok.1 h
    cases h
    rw [Backend.applyConfig] at h1
    obtain ⟨ex, -, h1⟩ := Res.bind_eq_ok.1 h1
    cases h1
    exact ⟨ho, rfl, rfl, rfl⟩
  | call op =>
    rw [BProc.pstep] at h
    cases op with
    | imu m =>
      rw [BProc.step] at h
      cases h
      simp only [Loader.pushImu, ho, hn]
      exact ⟨rfl, rfl, rfl, rfl⟩
    | feat m =>
      rw [BProc.step] at h
      cases h
      unfold Loader.pushFeatures featTime
      by_cases hl : m.ids.length ≠ m.observes.length
      · simp only [if_pos hl]
        exact ⟨ho, rfl, rfl, rfl⟩
      · simp only [if_neg hl, ho, hn]
        exact ⟨rfl, rfl, rfl, rfl⟩
    | run env =>
      rw [BProc.step] at h
      obtain ⟨⟨r, b⟩, h1, h⟩ := Res.bind_eq_ok.1 h
      cases h
      refine ⟨?_, rfl, rfl, rfl⟩
      show b.loader.offset = _
      rw [Backend.runOnce_loader _ _ _ _ _ h1, Loader.popOne_offset, ho]
    | runTest =>
      rw [BProc.step] at h
      cases h
      refine ⟨?_, rfl, rfl, rfl⟩
      show p.b.loader.popOne.loader.offset = _
      rw [Loader.popOne_offset, ho]
    | publishPropagate =>
      rw [BProc.step] at h
      obtain ⟨s, -, h⟩ := Res.bind_eq_ok.1 h
      cases h
      exact ⟨ho, rfl, rfl, rfl⟩
    | publishUpdate =>
      rw [BProc.step] at h
      obtain ⟨s, -, h⟩ := Res.bind_eq_ok.1 h
      cases h
      exact ⟨ho, rfl, rfl, rfl⟩
    | reset =>
      rw [BProc.step] at h
      cases h
      exact ⟨ho, rfl, rfl, rfl⟩

/-- Two processes with the same backend answer a call in the same way. -/
theorem pstep_same (hn : TimeOps.isNaN (TimeOps.tlit (-1) : T) = false) (x y : BProc K T) (op : COp K T) (hb : y.b = x.b) (ho : x.b.loader.offset = TimeOps.tlit (-1))
    (hg : y.g = x.g ∨ ∃ c, op = .config c)
    (h1 : ∀ t, imuTime op = some t → TimeOps.lt (TimeOps.sub t (TimeOps.tlit 1)) t = true ∧ (∀ a, x.statics.lastImu = some a → TimeOps.lt a t = true) ∧ ∀ a, y.statics.lastImu = some a → TimeOps.lt a t = true)
    (h2 : ∀ t, featTime op = some t → TimeOps.lt (TimeOps.sub t (TimeOps.tlit 1)) t = true ∧ (∀ a, x.statics.lastFeat = some a → TimeOps.lt a t = true) ∧ ∀ a, y.statics.lastFeat = some a → TimeOps.lt a t = true) :
    Both (fun r r' => r.2 = r'.2 ∧ r.1.b = r'.1.b) (x.pstep op) (y.pstep op) := by
  obtain ⟨sx, gx, bx⟩ := x
  obtain ⟨sy, gy, b⟩ := y
  obtain rfl : b = bx := hb
  replace ho : b.loader.offset = TimeOps.tlit (-1) := ho
  cases op with
  | config c => 
    rw [BProc.pstep, BProc.pstep]
    refine (Both.refl (R := Eq) (fun _ => rfl) _).bind (fun u v _ _ e => ?_)
    subst e
    exact ⟨rfl, rfl⟩
  | call op =>
    obtain rfl : gy = gx := hg.resolve_right (by rintro ⟨c, h⟩; cases h)
    rw [BProc.pstep, BProc.pstep]
    cases op with
    | imu m =>
      obtain ⟨k1, k2, k3⟩ := h1 _ rfl
      rw [BProc.step, BProc.step]
      simp only [Loader.pushImu, ho, hn]
      refine ⟨rfl, ?_⟩
      have e2 : TimeOps.lt (sx.lastImu.getD _) _ = true := getD_lt k1 k2
      have e3 : TimeOps.lt (sy.lastImu.getD _) _ = true := getD_lt k1 k3
      simp only [Bool.false_eq_true, if_false, e2, e3]
    | feat m =>
      rw [BProc.step, BProc.step]
      refine ⟨rfl, ?_⟩
      unfold Loader.pushFeatures
      by_cases hl : m.ids.length ≠ m.observes.length
      · simp only [if_pos hl]
      · obtain ⟨k1, k2, k3⟩ := h2 _ (if_neg hl)
        have e2 : TimeOps.lt (sx.lastFeat.getD _) _ = true := getD_lt k1 k2
        have e3 : TimeOps.lt (sy.lastFeat.getD _) _ = true := getD_lt k1 k3
        simp only [if_neg hl, ho, hn, Bool.false_eq_true, if_false, e2, e3]
    | run env =>
      rw [BProc.step, BProc.step]
      refine (Both.refl (R := Eq) (fun _ => rfl) _).bind (fun u v _ _ e => ?_)
      subst e
      exact ⟨rfl, rfl⟩
    | runTest => exact ⟨rfl, rfl⟩
    | publishPropagate =>
      rw [BProc.step, BProc.step]
      refine (Both.refl (R := Eq) (fun _ => rfl) _).bind (fun u v _ _ e => ?_)
      subst e
      exact ⟨rfl, rfl⟩
    | publishUpdate =>
      rw [BProc.step, BProc.step]
      refine (Both.refl (R := Eq) (fun _ => rfl) _).bind (fun u v _ _ e => ?_)
      subst e
      exact ⟨rfl, rfl⟩
    | reset => exact ⟨rfl, rfl⟩

/-- The times of all samples, whichever backend gets them. -/
def imuTimes (ops : List (Nat × COp K T)) : List T := ops.filterMap (fun e => imuTime e.2)

/-- The times of all images. -/
def featTimes (ops : List (Nat × COp K T)) : List T := ops.filterMap (fun e => featTime e.2)

/-- Backend `j` is configured before any other call on it. -/
def ConfiguredFirst (j : Nat) (ops : List (Nat × COp K T)) : Prop := ∀ op rest, own j ops = op :: rest → ∃ c, op = .config c

/-- The process `x` with all backends, and the process `y` with backend `j` only. -/
structure Rel (γ : K) (j : Nat) (x : MProc K T) (y : BProc K T) (ops : List (Nat × COp K T)) : Prop where
  b : y.b = x.bs j
  off : (x.bs j).loader.offset = TimeOps.tlit (-1)
  g : (x.g = ⟨lit 0, lit 0, γ⟩ ∧ y.g = ⟨lit 0, lit 0, γ⟩) ∨ ConfiguredFirst j ops
  xi : Ahead x.statics.lastImu (imuTimes ops)
  yi : Ahead y.statics.lastImu (imuTimes ops)
  xf : Ahead x.statics.lastFeat (featTimes ops)
  yf : Ahead y.statics.lastFeat (featTimes ops)

theorem own_cons_self {α : Type} (j : Nat) (a : α) (l : List (Nat × α)) : own j ((j, a) :: l) = a :: own j l := by
  simp [own]

theorem own_cons_ne {α : Type} {i j : Nat} (h : i ≠ j) (a : α) (l : List (Nat × α)) : own j ((i, a) :: l) = own j l := by
  simp [own, h]

theorem ahead_tail {last : Option T} {o : Option T} {ts : List T} (h : Ahead last (o.toList ++ ts)) : Ahead last ts :=
  fun a ha t ht => h a ha t (List.mem_append_right _ ht)

theorem ahead_or {last : Option T} {o : Option T} {ts : List T} (h : Ahead last (o.toList ++ ts)) (hp : (o.toList ++ ts).Pairwise (fun a b => TimeOps.lt a b = true)) :
    Ahead (o.or last) ts := by
  cases o with
  | none => exact ahead_tail h
  | some t =>
    intro a ha u hu
    cases ha
    exact (List.pairwise_cons.1 hp).1 u hu

theorem filterMap_cons_append {α β : Type} (f : α → Option β) (a : α) (l : List α) : (a :: l).filterMap f = (f a).toList ++ l.filterMap f := by
  rw [List.filterMap_cons]
  cases f a <;> rfl

/-- A call on another backend. -/
theorem rel_other (hn : TimeOps.isNaN (TimeOps.tlit (-1) : T) = false) (γ : K) {i j : Nat} (hij : i ≠ j) (x x1 : MProc K T) (y : BProc K T) (op : COp K T) (o : BOut K T) (ops : List (Nat × COp K T))
    (h : Rel γ j x y ((i, op) :: ops)) (hi : (x.bs i).loader.offset = TimeOps.tlit (-1)) (hc : ∀ c, op = .config c → c.gravity = γ)
    (ti : (imuTimes ((i, op) :: ops)).Pairwise (fun a b => TimeOps.lt a b = true)) (tf : (featTimes ((i, op) :: ops)).Pairwise (fun a b => TimeOps.lt a b = true))
    (hs : x.step i op = .ok (x1, o)) : Rel γ j x1 y ops := by
  rw [step] at hs
  obtain ⟨⟨q, o'⟩, h1, hs⟩ := Res.bind_eq_ok.1 hs
  cases hs
  obtain ⟨e1, e2, e3, e4⟩ := pstep_shared hn _ _ _ _ h1 hi
  rw [imuTimes, filterMap_cons_append] at ti
  rw [featTimes, filterMap_cons_append] at tf
  have xi := h.xi
  have yi := h.yi
  have xf := h.xf
  have yf := h.yf
  rw [imuTimes, filterMap_cons_append] at xi yi
  rw [featTimes, filterMap_cons_append] at xf yf
  refine ⟨h.b.trans (if_neg (Ne.symm hij)).symm, ?_, ?_, ?_, ahead_tail yi, ?_, ahead_tail yf⟩
  · show (if j = i then q.b else x.bs j).loader.offset = _
    rw [if_neg (Ne.symm hij)]
    exact h.off
  · rcases h.g with ⟨g1, g2⟩ | hf
    · refine .inl ⟨?_, g2⟩
      show q.g = _
      rw [e4]
      cases op with
      | config c => rw [← hc c rfl]; rfl
      | call op => exact g1
    · refine .inr (fun op' rest hr => hf op' rest ?_)
      rw [own_cons_ne hij]
      exact hr
  · show Ahead q.statics.lastImu _
    rw [e2]
    exact ahead_or xi ti
  · show Ahead q.statics.lastFeat _
    rw [e3]
    exact ahead_or xf tf

/-- A call on the backend itself. -/
theorem rel_self (hn : TimeOps.isNaN (TimeOps.tlit (-1) : T) = false) (γ : K) {j : Nat} (x : MProc K T) (y : BProc K T) (op : COp K T) (ops : List (Nat × COp K T))
    (h : Rel γ j x y ((j, op) :: ops)) (hc : ∀ c, op = .config c → c.gravity = γ)
    (ti : Increasing (imuTimes ((j, op) :: ops))) (tf : Increasing (featTimes ((j, op) :: ops))) :
    Both (fun r r' => r.2 = r'.2 ∧ Rel γ j r.1 r'.1 ops) (x.step j op) (y.pstep op) := by
  obtain ⟨ti, si⟩ := ti
  obtain ⟨tf, sf⟩ := tf
  have xi := h.xi
  have yi := h.yi
  have xf := h.xf
  have yf := h.yf
  rw [imuTimes, filterMap_cons_append] at ti xi yi si
  rw [featTimes, filterMap_cons_append] at tf xf yf sf
  have hs := pstep_same hn (x.view j) y op h.b h.off
    (by
      rcases h.g with ⟨g1, g2⟩ | hf
      · exact .inl (g2.trans g1.symm)
      · exact .inr (hf op _ (own_cons_self j op ops)))
    (by
      intro t ht
      have hm : t ∈ (imuTime op).toList ++ ops.filterMap (fun e => imuTime e.2) := List.mem_append_left _ (by rw [ht]; exact List.mem_cons_self)
      exact ⟨si t hm, fun a ha => xi a ha t hm, fun a ha => yi a ha t hm⟩)
    (by
      intro t ht
      have hm : t ∈ (featTime op).toList ++ ops.filterMap (fun e => featTime e.2) := List.mem_append_left _ (by rw [ht]; exact List.mem_cons_self)
      exact ⟨sf t hm, fun a ha => xf a ha t hm, fun a ha => yf a ha t hm⟩)
  rw [step]
  rw [show y.pstep op = (y.pstep op >>= fun r => .ok r) from by cases y.pstep op <;> rfl]
  refine hs.bind (fun ⟨q, o⟩ ⟨q', o'⟩ h1 h2 e => ?_)
  obtain ⟨a1, a2, a3, a4⟩ := pstep_shared hn _ _ _ _ h1 h.off
  obtain ⟨b1, b2, b3, b4⟩ := pstep_shared hn _ _ _ _ h2 (by rw [h.b]; exact h.off)
  refine ⟨e.1, ?_, ?_, ?_, ?_, ?_, ?_, ?_⟩
  · exact e.2.symm.trans (if_pos rfl).symm
  · show (if j = j then q.b else x.bs j).loader.offset = _
    rw [if_pos rfl]
    exact a1
  · refine .inl ⟨?_, ?_⟩
    · show q.g = _
      rw [a4]
      rcases h.g with ⟨g1, g2⟩ | hf
      · cases op with
        | config c => rw [← hc c rfl]; rfl
        | call op => exact g1
      · obtain ⟨c, rfl⟩ := hf op _ (own_cons_self j op ops)
        rw [← hc c rfl]; rfl
    · show q'.g = _
      rw [b4]
      rcases h.g with ⟨g1, g2⟩ | hf
      · cases op with
        | config c => rw [← hc c rfl]; rfl
        | call op => exact g2
      · obtain ⟨c, rfl⟩ := hf op _ (own_cons_self j op ops)
        rw [← hc c rfl]; rfl
  · show Ahead q.statics.lastImu _
    rw [a2]
    exact ahead_or xi ti
  · show Ahead q'.statics.lastImu _
    rw [b2]
    exact ahead_or yi ti
  · show Ahead q.statics.lastFeat _
    rw [a3]
    exact ahead_or xf tf
  · show Ahead q'.statics.lastFeat _
    rw [b3]
    exact ahead_or yf tf

theorem increasing_tail (ts us : List T) (h : Increasing (ts ++ us)) : Increasing us :=
  ⟨(List.pairwise_append.1 h.1).2.1, fun t ht => h.2 t (List.mem_append_right _ ht)⟩

theorem step_off (hn : TimeOps.isNaN (TimeOps.tlit (-1) : T) = false) (x x1 : MProc K T) (i : Nat) (op : COp K T) (o : BOut K T) (h : ∀ j, (x.bs j).loader.offset = TimeOps.tlit (-1))
    (hs : x.step i op = .ok (x1, o)) : ∀ j, (x1.bs j).loader.offset = TimeOps.tlit (-1) := by
  rw [step] at hs
  obtain ⟨⟨q, o'⟩, h1, hs⟩ := Res.bind_eq_ok.1 hs
  cases hs
  intro j
  show (if j = i then q.b else x.bs j).loader.offset = _
  split
  · exact (pstep_shared hn _ _ _ _ h1 (h i)).1
  · exact h j

theorem run_alone (hn : TimeOps.isNaN (TimeOps.tlit (-1) : T) = false) (γ : K) (j : Nat) (ops : List (Nat × COp K T)) : ∀ (x x' : MProc K T) (y : BProc K T) (outs : List (Nat × BOut K T)),
    Rel γ j x y ops → (∀ i, (x.bs i).loader.offset = TimeOps.tlit (-1)) → (∀ i c, (i, .config c) ∈ ops → c.gravity = γ) → Increasing (imuTimes ops) → Increasing (featTimes ops) →
    x.run ops = .ok (x', outs) → ∃ y', y.prun (own j ops) = .ok (y', own j outs) ∧ y'.b = x'.bs j := by
  induction ops with
  | nil =>
    intro x x' y outs h _ _ _ _ hr
    cases hr
    exact ⟨y, rfl, h.b⟩
  | cons e ops ih =>
    obtain ⟨i, op⟩ := e
    intro x x' y outs h ho hc ti tf hr
    rw [run] at hr
    obtain ⟨⟨x1, o⟩, h1, hr⟩ := Res.bind_eq_ok.1 hr
    obtain ⟨⟨x2, os⟩, h2, hr⟩ := Res.bind_eq_ok.1 hr
    cases hr
    have ti' := ti
    have tf' := tf
    rw [imuTimes, filterMap_cons_append] at ti'
    rw [featTimes, filterMap_cons_append] at tf'
    have ho1 := step_off hn _ _ _ _ _ ho h1
    have hc1 : ∀ i c, (i, .config c) ∈ ops → c.gravity = γ := fun i c hm => hc i c (List.mem_cons_of_mem _ hm)
    by_cases hij : i = j
    · subst hij
      obtain ⟨⟨y1, o'⟩, k1, k2, k3⟩ := (rel_self hn γ x y op ops h (fun c e => hc i c (by rw [e]; exact List.mem_cons_self)) ti tf).ok h1
      obtain ⟨y2, m1, m2⟩ := ih x1 x' y1 os k3 ho1 hc1 (increasing_tail _ _ ti') (increasing_tail _ _ tf') h2
      refine ⟨y2, ?_, m2⟩
      rw [own_cons_self, own_cons_self, BProc.prun, k1, Res.bind_ok]
      dsimp only
      rw [m1, Res.bind_ok, show o' = o from k2.symm]
    · obtain ⟨y2, m1, m2⟩ := ih x1 x' y os (rel_other hn γ hij x x1 y op o ops h (ho i) (fun c e => hc i c (by rw [e]; exact List.mem_cons_self)) ti.1 tf.1 h1) ho1 hc1
        (increasing_tail _ _ ti') (increasing_tail _ _ tf') h2
      exact ⟨y2, by rw [own_cons_ne hij, own_cons_ne hij]; exact m1, m2⟩

theorem run_safe (hn : TimeOps.isNaN (TimeOps.tlit (-1) : T) = false) (γ : K) (ops : List (Nat × COp K T)) : ∀ (x : MProc K T) (ys : Nat → BProc K T),
    (∀ j, Rel γ j x (ys j) ops) → (∀ i c, (i, .config c) ∈ ops → c.gravity = γ) → Increasing (imuTimes ops) → Increasing (featTimes ops) →
    (∀ j, ∃ r, (ys j).prun (own j ops) = .ok r) → ∃ r, x.run ops = .ok r := by
  induction ops with
  | nil => intro x ys _ _ _ _ _; exact ⟨_, rfl⟩
  | cons e ops ih =>
    obtain ⟨i, op⟩ := e
    intro x ys h hc ti tf hr
    have ti' := ti
    have tf' := tf
    rw [imuTimes, filterMap_cons_append] at ti'
    rw [featTimes, filterMap_cons_append] at tf'
    have hc0 : ∀ c, op = .config c → c.gravity = γ := fun c e => hc i c (by rw [e]; exact List.mem_cons_self)
    have hi := rel_self hn γ x (ys i) op ops (h i) hc0 ti tf
    obtain ⟨⟨yr, os⟩, hy⟩ := hr i
    rw [own_cons_self, BProc.prun] at hy
    obtain ⟨⟨y1, o'⟩, k1, hy⟩ := Res.bind_eq_ok.1 hy
    obtain ⟨⟨y2, os'⟩, k2, hy⟩ := Res.bind_eq_ok.1 hy
    rw [k1] at hi
    cases hs : x.step i op with
    | ub t => rw [hs] at hi; exact hi.elim
    | ok a =>
      obtain ⟨x1, o⟩ := a
      rw [hs] at hi
      obtain ⟨r, hr1⟩ := ih x1 (fun j => if j = i then y1 else ys j)
        (by
          intro j
          by_cases hj : j = i
          · subst hj
            rw [if_pos rfl]
            exact hi.2
          · rw [if_neg hj]
            exact rel_other hn γ (Ne.symm hj) x x1 (ys j) op o ops (h j) (h i).off hc0 ti.1 tf.1 hs)
        (fun i c hm => hc i c (List.mem_cons_of_mem _ hm)) (increasing_tail _ _ ti') (increasing_tail _ _ tf')
        (by
          intro j
          by_cases hj : j = i
          · subst hj
            rw [if_pos rfl]
            exact ⟨_, k2⟩
          · rw [if_neg hj]
            obtain ⟨r, hr⟩ := hr j
            rw [own_cons_ne (Ne.symm hj)] at hr
            exact ⟨r, hr⟩)
      refine ⟨(r.1, (i, o) :: r.2), ?_⟩
      rw [run, hs, Res.bind_ok]
      dsimp only
      rw [hr1, Res.bind_ok]

/-- A process that has just started: `gravity_w` has its initial value, no message was pushed and all backends are fresh. -/
def fresh (st : Nat → Motion K) : MProc K T := ⟨{}, ⟨lit 0, lit 0, lit (98/10)⟩, fun j => .init (st j)⟩

/-- A process that has just started, with one backend. -/
def alone (st : Motion K) : BProc K T := ⟨{}, ⟨lit 0, lit 0, lit (98/10)⟩, .init st⟩

theorem fresh_rel (γ : K) (st : Nat → Motion K) (j : Nat) (ops : List (Nat × COp K T)) (h : ConfiguredFirst j ops) : Rel γ j (fresh st) (alone (st j)) ops :=
  ⟨rfl, rfl, .inr h, (by intro _ h; cases h), (by intro _ h; cases h), (by intro _ h; cases h), (by intro _ h; cases h)⟩

/-- C122.  In any arithmetic: when all backends of a process are configured with the same gravity, each before it is used, and the times of all samples given to the process increase, and those of all images,
then each backend returns what it returns as the only backend of a process, and ends in the same state. -/
theorem C122_alone (hn : TimeOps.isNaN (TimeOps.tlit (-1) : T) = false) (γ : K) (st : Nat → Motion K) (ops : List (Nat × COp K T)) (x' : MProc K T) (outs : List (Nat × BOut K T))
    (hf : ∀ j, ConfiguredFirst j ops) (hc : ∀ i c, (i, .config c) ∈ ops → c.gravity = γ) (ti : Increasing (imuTimes ops)) (tf : Increasing (featTimes ops))
    (hr : (fresh st).run ops = .ok (x', outs)) (j : Nat) : ∃ y', (alone (st j)).prun (own j ops) = .ok (y', own j outs) ∧ y'.b = x'.bs j :=
  run_alone hn γ j ops _ x' _ outs (fresh_rel γ st j ops (hf j)) (fun _ => rfl) hc ti tf hr

/-- C122.  Such a process has no undefined behaviour unless one of the backends has it alone. -/
theorem C122_safe (hn : TimeOps.isNaN (TimeOps.tlit (-1) : T) = false) (γ : K) (st : Nat → Motion K) (ops : List (Nat × COp K T))
    (hf : ∀ j, ConfiguredFirst j ops) (hc : ∀ i c, (i, .config c) ∈ ops → c.gravity = γ) (ti : Increasing (imuTimes ops)) (tf : Increasing (featTimes ops))
    (hr : ∀ j, ∃ r, (alone (st j) : BProc K T).prun (own j ops) = .ok r) : ∃ r, (fresh st : MProc K T).run ops = .ok r :=
  run_safe hn γ ops _ (fun j => alone (st j)) (fun j => fresh_rel γ st j ops (hf j)) hc ti tf hr

end MProc
end Vio

namespace Vio
open Res

variable {K T : Type} [Add K] [Sub K] [Mul K] [Neg K] [Div K] [Zero K] [One K] [ScalarFn K]
  [TimeOps T] [TimeCast T K]

namespace MProc

/-- C122.  While all calls are made on one backend, the process is one with that backend only. -/
theorem C122_one (i : Nat) (ops : List (COp K T)) : ∀ (x : MProc K T) (q : BProc K T) (os : List (BOut K T)), (x.view i).prun ops = .ok (q, os) →
    ∃ x', x.run (ops.map (fun op => (i, op))) = .ok (x', os.map (fun o => (i, o))) ∧ x'.view i = q := by
  induction ops with
  | nil => intro x q os h; cases h; exact ⟨x, rfl, rfl⟩
  | cons op ops ih =>
    intro x q os h
    rw [BProc.prun] at h
    obtain ⟨⟨q1, o⟩, h1, h⟩ := Res.bind_eq_ok.1 h
    obtain ⟨⟨q2, os'⟩, h2, h⟩ := Res.bind_eq_ok.1 h
    cases h
    obtain ⟨x', k1, k2⟩ := ih ⟨q1.statics, q1.g, fun j => if j = i then q1.b else x.bs j⟩ q os' (by rw [← h2, view]; dsimp only; rw [if_pos rfl])
    refine ⟨x', ?_, k2⟩
    rw [List.map_cons, run, step, h1, Res.bind_ok, Res.bind_ok]
    dsimp only
    rw [k1]
    rfl

/-- C122.  The call `config` is what `ConfigParams` does once the files are read. -/
theorem C122_config (lib : ConfLib K) (fs : String → Option (List Char)) (path : String) (fuel : Nat) (s s' : Conf.St K) (p : BProc K T) (r : Bool) (b' : Backend K T) (g' : Vec3 K)
    (h : Backend.configParams lib fs path fuel s p.g p.b = .ok (some (r, b', g', s'))) : p.pstep (.config s'.cfg) = .ok (⟨p.statics, g', b'⟩, .ret true) := by
  rw [Backend.configParams] at h
  obtain ⟨r0, h0, h⟩ := Res.bind_eq_ok.1 h
  rw [Conf.readConfig] at h0
  obtain ⟨s1, -, h0⟩ := Res.bind_eq_ok.1 h0
  obtain ⟨s2, -, h0⟩ := Res.bind_eq_ok.1 h0
  cases s2 with
  | none => cases h0; cases h
  | some s2 =>
    obtain ⟨s3, -, h0⟩ := Res.bind_eq_ok.1 h0
    cases h0
    obtain ⟨⟨b, g⟩, h1, h⟩ := Res.bind_eq_ok.1 h
    cases h
    rw [BProc.pstep, h1]
    rfl

/-- C122.  The other side: a sample that is not later than the last one given to the process is lost, whichever backend got that one. -/
theorem C122_lost (hn : TimeOps.isNaN (TimeOps.tlit (-1) : T) = false) (x : MProc K T) (i j : Nat) (m m' : ImuMsg K T) (hi : (x.bs i).loader.offset = TimeOps.tlit (-1))
    (hj : (x.bs j).loader.offset = TimeOps.tlit (-1)) (hij : i ≠ j)
    (ht : TimeOps.lt (TimeOps.sub m.ts (TimeOps.tlit (-1))) (TimeOps.sub m'.ts (TimeOps.tlit (-1)) : T) = false) :
    ∃ x', x.run [(i, .call (.imu m)), (j, .call (.imu m'))] = .ok (x', [(i, .ret true), (j, .ret true)]) ∧ (x'.bs j).loader.imuMeas = (x.bs j).loader.imuMeas := by
  refine ⟨_, rfl, ?_⟩
  simp [view, Loader.pushImu, hi, hj, hn, Ne.symm hij, ht]

/-- C122.  The same for images. -/
theorem C122_lost_image (hn : TimeOps.isNaN (TimeOps.tlit (-1) : T) = false) (x : MProc K T) (i j : Nat) (m m' : FeatMsg K T) (hi : (x.bs i).loader.offset = TimeOps.tlit (-1))
    (hj : (x.bs j).loader.offset = TimeOps.tlit (-1)) (hij : i ≠ j) (hm : m.ids.length = m.observes.length)
    (ht : TimeOps.lt (TimeOps.sub m.ts (TimeOps.tlit (-1))) (TimeOps.sub m'.ts (TimeOps.tlit (-1)) : T) = false) :
    ∃ x', x.run [(i, .call (.feat m)), (j, .call (.feat m'))] = .ok (x', [(i, .ret true), (j, .ret true)]) ∧ (x'.bs j).loader.featMeas = (x.bs j).loader.featMeas := by
  refine ⟨_, rfl, ?_⟩
  simp only [view, Loader.pushFeatures]
  by_cases h' : m'.ids.length = m'.observes.length
  · simp [hi, hj, hn, Ne.symm hij, ht, hm, h']
  · simp [hi, hn, Ne.symm hij, hm, h']

/-- A configuration that differs from the default in gravity. -/
noncomputable def exConf (γ : ℝ) : Config ℝ := { Config.default with gravity := γ }

/-- A sample at rest on a planet with gravity 10. -/
noncomputable def exSample (t : ℝ) : ImuMsg ℝ ℝ := ⟨0, ⟨6, 0, 8⟩, t⟩

theorem exRun (γ : ℝ) (env : Env ℝ) (t : ℝ) (p : BProc ℝ ℝ) (hg : p.g = ⟨0, 0, γ⟩) (hs : p.statics.lastImu = none) (h1 : p.b.loader.imuMeas = []) (h2 : p.b.loader.featMeas = [])
    (h3 : p.b.loader.offset = -1) (h4 : p.b.att = Att.init) (h5 : p.b.status = .needInit) :
    ∃ p', p.prun [.call (.imu (exSample t)), .call (.run env)] = .ok (p', [.ret true, .ret (Att.init.propagate (⟨0, 0, γ⟩ : Vec3 ℝ) ⟨6, 0, 8⟩ 0 (t - (-1))).2]) := by
  obtain ⟨⟨lf, li⟩, g, ⟨⟨fm, im, off, per⟩, u, att, ns, mu, mo, pn, stt⟩⟩ := p
  dsimp only at *
  subst hg hs h1 h2 h3 h4 h5
  rw [BProc.prun, BProc.pstep, BProc.step]
  have e : TimeOps.lt ((none : Option ℝ).getD (TimeOps.sub (TimeOps.sub t (-1)) (TimeOps.tlit 1))) (TimeOps.sub t (-1)) = true := by
    rw [TimeLaws.lt_iff]
    show t - (-1) - ((1 : ℚ) : ℝ) < t - (-1)
    norm_num
  have hn : TimeOps.isNaN (-1 : ℝ) = false := rfl
  simp only [Loader.pushImu, exSample, hn, Bool.false_eq_true, if_false, e, if_true]
  exact ⟨_, rfl⟩

theorem ex_norm (γ : ℝ) (h : 0 ≤ γ) : (⟨0, 0, γ⟩ : Vec3 ℝ).norm = γ := by
  show Real.sqrt _ = _
  rw [show (⟨0, 0, γ⟩ : Vec3 ℝ).sqNorm = γ ^ 2 from by simp [Vec3.sqNorm]; ring]
  exact Real.sqrt_sq h

theorem ex_starts (γ : ℝ) (h : 0 ≤ γ) (t : ℝ) : (Att.init.propagate (⟨0, 0, γ⟩ : Vec3 ℝ) ⟨6, 0, 8⟩ 0 t).2 = decide (|γ - 10| ≤ 4 / 100) := by
  have e : (⟨6, 0, 8⟩ : Vec3 ℝ) - (Att.init : Att ℝ ℝ).biasA = ⟨6, 0, 8⟩ := by
    refine Vec3.ext_iff.2 ⟨?_, ?_, ?_⟩ <;> simp [Att.init]
  have n : (⟨6, 0, 8⟩ : Vec3 ℝ).norm = 10 := by
    rw [← ex_norm 10 (by norm_num)]
    show ScalarFn.sqrt _ = ScalarFn.sqrt _
    congr 1
    norm_num [Vec3.sqNorm, Vec3.dot]
  unfold Att.propagate
  rw [show (Att.init : Att ℝ ℝ).items.getLast? = none from rfl]
  dsimp only
  rw [e, n, ex_norm γ h]
  have k : (TimeOps.lt (TimeOps.tlit (4 / 100) : ℝ) (TimeCast.ofK (ScalarFn.fabs (γ - 10))) = true) ↔ 4 / 100 < |γ - 10| := by
    rw [TimeLaws.lt_iff]
    show ((4 / 100 : ℚ) : ℝ) < |γ - 10| ↔ _
    norm_num
  by_cases hc : 4 / 100 < |γ - 10|
  · rw [if_pos (k.2 hc)]
    exact (decide_eq_false (not_le.2 hc)).symm
  · rw [if_neg (fun hh => hc (k.1 hh))]
    exact (decide_eq_true (not_lt.1 hc)).symm

theorem ex_config (x : MProc ℝ ℝ) (i : Nat) (γ : ℝ) : ∃ x1, x.step i (.config (exConf γ)) = .ok (x1, .ret true) ∧ x1.g = ⟨lit 0, lit 0, γ⟩ ∧ x1.statics = x.statics ∧
    (∀ j, j ≠ i → x1.bs j = x.bs j) ∧ ∃ b, (x.bs i).applyConfig (exConf γ) = .ok b ∧ x1.bs i = b.1 :=
  ⟨_, rfl, rfl, rfl, fun _ h => if_neg h, _, rfl, if_pos rfl⟩

/-- C122.  The other side: the gravity of the backend configured last is that of all.  Backend 0, configured with gravity 10 and given a sample at rest, starts its attitude filter;
when backend 1 is configured with gravity 2 before, the call on backend 0 fails. -/
theorem C122_gravity (st : Nat → Motion ℝ) (env : Env ℝ) (t : ℝ) :
    (∃ x', (fresh st : MProc ℝ ℝ).run [(0, .config (exConf 10)), (0, .call (.imu (exSample t))), (0, .call (.run env))] = .ok (x', [(0, .ret true), (0, .ret true), (0, .ret true)])) ∧
    ∃ x', (fresh st : MProc ℝ ℝ).run [(0, .config (exConf 10)), (1, .config (exConf 2)), (0, .call (.imu (exSample t))), (0, .call (.run env))] =
      .ok (x', [(0, .ret true), (1, .ret true), (0, .ret true), (0, .ret false)]) := by
  have hz : ∀ γ : ℝ, (⟨lit 0, lit 0, γ⟩ : Vec3 ℝ) = ⟨0, 0, γ⟩ := by
    intro γ
    refine Vec3.ext_iff.2 ⟨?_, ?_, rfl⟩ <;> exact Rat.cast_zero
  have hm : (TimeOps.tlit (-1) : ℝ) = -1 := by show ((-1 : ℚ) : ℝ) = -1; norm_num
  have key : ∀ (x : MProc ℝ ℝ) (γ : ℝ), 0 ≤ γ → x.g = ⟨lit 0, lit 0, γ⟩ → x.statics.lastImu = none → (∃ b, ((fresh st : MProc ℝ ℝ).bs 0).applyConfig (exConf 10) = .ok b ∧ x.bs 0 = b.1) →
      ∃ x', x.run [(0, .call (.imu (exSample t))), (0, .call (.run env))] = .ok (x', [(0, .ret true), (0, .ret (decide (|γ - 10| ≤ 4 / 100)))]) := by
    rintro x γ hγ hg hs ⟨b, hb, hx⟩
    cases hb
    obtain ⟨p', hp⟩ := exRun γ env t (x.view 0) (by rw [← hz, ← hg]; rfl) hs (by rw [view, hx]; rfl) (by rw [view, hx]; rfl) (by rw [view, hx]; exact hm) (by rw [view, hx]; rfl) (by rw [view, hx]; rfl)
    rw [ex_starts γ hγ] at hp
    obtain ⟨x', h', -⟩ := C122_one 0 _ x p' _ hp
    exact ⟨x', h'⟩
  obtain ⟨x1, k1, k2, k3, k4, k5⟩ := ex_config (fresh st) 0 10
  constructor
  · obtain ⟨x', h⟩ := key x1 10 (by norm_num) k2 (by rw [k3]; rfl) k5
    refine ⟨x', ?_⟩
    rw [show decide (|(10 : ℝ) - 10| ≤ 4 / 100) = true from decide_eq_true (by norm_num)] at h
    rw [run, k1, Res.bind_ok]
    dsimp only
    rw [h, Res.bind_ok]
  · obtain ⟨x2, l1, l2, l3, l4, -⟩ := ex_config x1 1 2
    obtain ⟨x', h⟩ := key x2 2 (by norm_num) l2 (by rw [l3, k3]; rfl) (by rw [l4 0 (by decide)]; exact k5)
    refine ⟨x', ?_⟩
    rw [show decide (|(2 : ℝ) - 10| ≤ 4 / 100) = false from decide_eq_false (by norm_num)] at h
    rw [run, k1, Res.bind_ok]
    dsimp only
    rw [run, l1, Res.bind_ok]
    dsimp only
    rw [h, Res.bind_ok, Res.bind_ok]

/-- Two backends with interleaved calls. -/
def exTwo : List (Nat × COp ℚ ℚ) :=
  [(0, .config .default), (1, .config .default), (0, .call (.imu ⟨0, ⟨0, 0, 98/10⟩, 1⟩)), (1, .call (.imu ⟨0, ⟨0, 0, 98/10⟩, 2⟩)), (1, .call (.feat ⟨[], [], 2⟩)), (0, .call (.feat ⟨[], [], 3⟩)),
    (0, .call (.run Backend.exEnv)), (1, .call (.run Backend.exEnv)), (1, .call .publishUpdate)]

/-- C122: the hypotheses hold for it. -/
example : (∀ j, ConfiguredFirst j exTwo) ∧ (∀ i c, (i, .config c) ∈ exTwo → c.gravity = 98/10) ∧ Increasing (imuTimes exTwo) ∧
    Increasing (featTimes exTwo) ∧ ((fresh (fun _ => ⟨0, 0, .one⟩) : MProc ℚ ℚ).run exTwo).isOk = true := by
  refine ⟨?_, ?_, ?_, ?_, ?_⟩
  · intro j op rest h
    by_cases h0 : j = 0
    · subst h0; cases h; exact ⟨_, rfl⟩
    · by_cases h1 : j = 1
      · subst h1; cases h; exact ⟨_, rfl⟩
      · have : own j exTwo = [] := by
          simp [own, exTwo, Ne.symm h0, Ne.symm h1]
        rw [this] at h
        cases h
  · intro i c h
    simp [exTwo] at h
    rcases h with ⟨-, rfl⟩ | ⟨-, rfl⟩ <;> rfl
  · show Increasing ([1 - (-1), 2 - (-1)] : List ℚ)
    unfold Increasing
    decide +kernel
  · show Increasing ([2 - (-1), 3 - (-1)] : List ℚ)
    unfold Increasing
    decide +kernel
  · decide +kernel

end MProc
end Vio
