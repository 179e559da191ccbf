/-
Two windows whose observations list the cameras in another order: every step of the window and of the filter keeps them so.
-/
import Verif.Spec.Cams
import Verif.Lemmas.Hash
import Verif.Lemmas.TurnSel

set_option linter.unusedSectionVars false

namespace Vio
open Spec WinSpec Update Res

section Generic
variable {K T : Type} [Add K] [Sub K] [Mul K] [Neg K] [Div K] [Zero K] [One K] [ScalarFn K] [TimeOps T] [TimeCast T K]

/-! ### The relations -/

theorem Obs.SameMap.get {o o' : Obs K} (h : o.SameMap o') (c : Nat) : o.getNorm c = o'.getNorm c := lookup_perm h.perm h.keys c

theorem Obs.SameMap.length {o o' : Obs K} (h : o.SameMap o') : o.norms.length = o'.norms.length := h.perm.length_eq

/-- The same feature, up to the order of the cameras in its observations. -/
structure Feature.Cam (f f' : Feature K) : Prop where
  id : f.id = f'.id
  first : f.first = f'.first
  observes : List.Forall₂ Obs.SameMap f.observes f'.observes
  observeNum : f.observeNum = f'.observeNum
  pw : f.pw = f'.pw
  status : f.status = f'.status

/-- The same features. -/
structure FMgr.Cam (s s' : FMgr K) : Prop where
  heap : ∀ r, (s.heap r).Cam (s'.heap r)
  next : s.next = s'.next
  map : s.map = s'.map

/-- The same window. -/
structure Win.Cam (w w' : Win K T) : Prop where
  feat : w.feat.Cam w'.feat
  frm : w.frm = w'.frm

theorem forall₂_idx {α β : Type _} {R : α → β → Prop} {l : List α} {l' : List β} (h : List.Forall₂ R l l') : ∀ i : Nat,
    (l[i]? = none ∧ l'[i]? = none) ∨ ∃ a b, l[i]? = some a ∧ l'[i]? = some b ∧ R a b := by
  induction h with
  | nil => intro i; exact .inl ⟨rfl, rfl⟩
  | cons h t ih =>
    intro i
    cases i with
    | zero => exact .inr ⟨_, _, rfl, rfl, h⟩
    | succ i => simpa using ih i

theorem idx_rel {α β : Type _} {R : α → β → Prop} {l : List α} {l' : List β} (h : List.Forall₂ R l l') (i : Nat) : Sim R (idx l i) (idx l' i) := by
  unfold idx
  rcases forall₂_idx h i with ⟨h1, h2⟩ | ⟨a, b, h1, h2, h3⟩
  · rw [h1, h2]; exact .ub
  · rw [h1, h2]; exact .ok h3

theorem getNorm_cam {f f' : Feature K} (h : f.Cam f') (fid c : Nat) : f.getNorm fid c = f'.getNorm fid c := by
  unfold Feature.getNorm
  rw [← h.first]
  rcases forall₂_idx h.observes (sub32 fid f.first) with ⟨h1, h2⟩ | ⟨a, b, h1, h2, h3⟩
  · rw [h1, h2]
  · rw [h1, h2]; exact h3.get c

theorem put_cam {s s' : FMgr K} (h : s.Cam s') (r : Nat) {f f' : Feature K} (hf : f.Cam f') : (s.put r f).Cam (s'.put r f') := by
  refine ⟨fun x => ?_, h.next, h.map⟩
  by_cases hx : x = r
  · simp only [FMgr.put, hx, if_true]; exact hf
  · simp only [FMgr.put, hx, if_false]; exact h.heap x

/-! ### Insertion of a message -/

theorem addOne_cam {s s' : FMgr K} (h : s.Cam s') (fid id : Nat) {o o' : Obs K} (ho : o.SameMap o') :
    (s.addOne fid id o).1.Cam (s'.addOne fid id o').1 ∧ (s.addOne fid id o).2 = (s'.addOne fid id o').2 := by
  unfold FMgr.addOne
  rw [← h.map]
  cases s.map.lookup id with
  | some r =>
    refine ⟨put_cam h r ?_, rfl⟩
    have hr := h.heap r
    unfold Feature.addNewObserve
    rw [← ho.length]
    split
    · exact hr
    · exact ⟨hr.id, hr.first, List.rel_append (R := Obs.SameMap) hr.observes (.cons ho .nil), by dsimp only; rw [hr.observeNum], hr.pw, hr.status⟩
  | none =>
    have hm : (Feature.make id fid o : Feature K).Cam (Feature.make id fid o') := ⟨rfl, rfl, .cons ho .nil, by show o.norms.length % two32 = _; rw [ho.length]; rfl, rfl, rfl⟩
    have := put_cam h s.next hm
    exact ⟨⟨by rw [← h.next]; exact this.heap, by simp only [h.next], by simp only [h.next]⟩, h.next⟩

theorem addAll_cam (fid : Nat) {L L' : List (Nat × Obs K)} (hL : List.Forall₂ (fun x y => x.1 = y.1 ∧ x.2.SameMap y.2) L L') : ∀ {s s' : FMgr K}, s.Cam s' →
    (s.addAll fid L).1.Cam (s'.addAll fid L').1 ∧ (s.addAll fid L).2 = (s'.addAll fid L').2 := by
  induction hL with
  | nil => intro s s' h; exact ⟨h, rfl⟩
  | @cons e e' L L' he hL ih =>
    intro s s' h
    obtain ⟨id, o⟩ := e
    obtain ⟨id', o'⟩ := e'
    obtain ⟨rfl, ho⟩ := he
    rw [FMgr.addAll, FMgr.addAll]
    obtain ⟨h1, h2⟩ := addOne_cam h fid id ho
    obtain ⟨h3, h4⟩ := ih h1
    exact ⟨h3, by dsimp only; rw [h2, h4]⟩

theorem zip_rel {α β γ : Type _} {R : β → γ → Prop} {l : List β} {l' : List γ} (h : List.Forall₂ R l l') : ∀ ids : List α,
    List.Forall₂ (fun x y => x.1 = y.1 ∧ R x.2 y.2) (ids.zip l) (ids.zip l') := by
  induction h with
  | nil => intro ids; cases ids <;> exact .nil
  | cons h t ih =>
    intro ids
    cases ids with
    | nil => exact .nil
    | cons i ids => exact .cons ⟨rfl, h⟩ (ih ids)

theorem addFeatures_cam {s s' : FMgr K} (h : s.Cam s') (f : Frame K T) (rs : List Nat) : f.addFeatures s rs = f.addFeatures s' rs := by
  unfold Frame.addFeatures Frame.addFeature
  simp only [fun r => (h.heap r).id]

theorem insert_cam {w w' : Win K T} (h : w.Cam w') {m m' : FeatMsg K T} (hm : m.SameMaps m') : (w.insert m).Cam (w'.insert m') := by
  unfold Win.insert FrameMgr.addNewFrame
  rw [← h.frm, ← hm.ts]
  dsimp only
  generalize FrameMgr.setupNew { w.frm with nextAddr := w.frm.nextAddr + 1 } (Frame.make w.frm.nextAddr m.ts : Frame K T) = new
  unfold FMgr.addNewFeatures
  rw [← hm.ids, ← hm.observes.length_eq]
  split
  · refine ⟨h.feat, ?_⟩
    dsimp only
    rw [addFeatures_cam h.feat]
  · obtain ⟨h1, h2⟩ := addAll_cam new.id (zip_rel hm.observes m.ids) h.feat
    dsimp only
    refine ⟨h1, ?_⟩
    dsimp only
    rw [← h2, addFeatures_cam h1]

/-! ### Marginalisation -/

theorem finalFrameID_cam {f f' : Feature K} (h : f.Cam f') : f.finalFrameID = f'.finalFrameID := by
  unfold Feature.finalFrameID
  rw [h.first, h.observes.length_eq]

theorem removeShift_cam {f f' : Feature K} (h : f.Cam f') (fid : Nat) : Sim (fun x y => x.1.Cam y.1 ∧ x.2 = y.2) (f.removeShift fid) (f'.removeShift fid) := by
  unfold Feature.removeShift
  rw [← h.first, ← finalFrameID_cam h, ← h.observes.length_eq]
  split
  · split
    · exact .ok ⟨⟨h.id, rfl, .nil, h.observeNum, h.pw, h.status⟩, rfl⟩
    · refine (idx_rel h.observes _).bind (fun o o' _ _ ho => ?_)
      exact .ok ⟨⟨h.id, rfl, forall₂_eraseIdx h.observes _, by dsimp only; rw [h.observeNum, ho.length], h.pw, h.status⟩, rfl⟩
  · split
    · exact .ok ⟨⟨h.id, rfl, h.observes, h.observeNum, h.pw, h.status⟩, rfl⟩
    · exact .ok ⟨h, rfl⟩

theorem removeFirst_cam {f f' : Feature K} (h : f.Cam f') (fid : Nat) : Sim (fun x y => x.1.Cam y.1 ∧ x.2 = y.2) (f.removeFirst fid) (f'.removeFirst fid) := by
  unfold Feature.removeFirst
  rw [← h.first, ← h.observes.length_eq]
  split
  · split
    · exact .ok ⟨⟨h.id, rfl, .nil, h.observeNum, h.pw, h.status⟩, rfl⟩
    · refine (idx_rel h.observes _).bind (fun o o' _ _ ho => ?_)
      exact .ok ⟨⟨h.id, rfl, forall₂_eraseIdx h.observes _, by dsimp only; rw [h.observeNum, ho.length], h.pw, h.status⟩, rfl⟩
  · exact .ok ⟨h, rfl⟩

theorem removeLoop_cam (fid : Nat) (offset : Bool) (l : List (Nat × Nat)) : ∀ {s s' : FMgr K}, s.Cam s' →
    Sim (fun x y => x.1.Cam y.1 ∧ x.2 = y.2) (FMgr.removeLoop fid offset s l) (FMgr.removeLoop fid offset s' l) := by
  induction l with
  | nil => intro s s' h; exact .ok ⟨h, rfl⟩
  | cons e l ih =>
    intro s s' h
    obtain ⟨i, r⟩ := e
    rw [FMgr.removeLoop, FMgr.removeLoop]
    have hk : ∀ x y : Feature K × Bool, x.1.Cam y.1 ∧ x.2 = y.2 → Sim (fun x y => x.1.Cam y.1 ∧ x.2 = y.2)
        (do let z ← FMgr.removeLoop fid offset (s.put r x.1) l; .ok (z.1, if x.2 = true then (s.heap r).id :: z.2 else z.2))
        (do let z ← FMgr.removeLoop fid offset (s'.put r y.1) l; .ok (z.1, if y.2 = true then (s'.heap r).id :: z.2 else z.2)) := by
      intro x y e
      refine (ih (put_cam h r e.1)).bind (fun z z' _ _ k => ?_)
      exact .ok ⟨k.1, by rw [(h.heap r).id, k.2, e.2]⟩
    cases offset with
    | true => exact (removeShift_cam (h.heap r) fid).bind (fun x y _ _ e => hk x y e)
    | false => exact (removeFirst_cam (h.heap r) fid).bind (fun x y _ _ e => hk x y e)

theorem removeByFrameID_cam {s s' : FMgr K} (h : s.Cam s') (fid : Nat) (offset : Bool) : Sim FMgr.Cam (s.removeByFrameID fid offset) (s'.removeByFrameID fid offset) := by
  unfold FMgr.removeByFrameID
  rw [← h.map]
  refine (removeLoop_cam fid offset s.map h).bind (fun ⟨s1, ds⟩ ⟨s1', ds'⟩ _ _ e => ?_)
  obtain ⟨e1, e2⟩ := e
  dsimp only at e1 e2 ⊢
  subst e2
  exact .ok ⟨e1.heap, e1.next, by dsimp only; rw [e1.map]⟩

theorem marginalize_cam {w w' : Win K T} (h : w.Cam w') (p : MargPolicy) : Sim Win.Cam (w.marginalize p) (w'.marginalize p) := by
  unfold Win.marginalize
  rw [← h.frm]
  cases p with
  | noMarg => exact .ok h
  | margNewest =>
    refine (Sim.of_eq rfl).bind (fun b _ _ _ e => ?_); subst e
    refine (removeByFrameID_cam h.feat _ _).bind (fun s s' _ _ hs => ?_)
    exact .ok ⟨hs, rfl⟩
  | margOldest =>
    refine (Sim.of_eq rfl).bind (fun b _ _ _ e => ?_); subst e
    refine (removeByFrameID_cam h.feat _ _).bind (fun s s' _ _ hs => ?_)
    exact .ok ⟨hs, rfl⟩
  | margSubnew =>
    refine (Sim.of_eq rfl).bind (fun b _ _ _ e => ?_); subst e
    refine (removeByFrameID_cam h.feat _ _).bind (fun s s' _ _ hs => ?_)
    exact .ok ⟨hs, rfl⟩

/-! ### The choice of the frame to remove -/

theorem trackStats_cam {s s' : FMgr K} (h : s.Cam s') (f pre : Frame K T) : FrameMgr.trackStats s f pre = FrameMgr.trackStats s' f pre := by
  unfold FrameMgr.trackStats
  congr 1
  funext acc e
  unfold FrameMgr.trackStep
  simp only [fun r fid => getNorm_cam (h.heap r) fid 0]

theorem decidePolicy_cam {w w' : Win K T} (h : w.Cam w') : decidePolicy w = decidePolicy w' := by
  unfold decidePolicy FrameMgr.isKeyFrame
  rw [← h.frm]
  simp only [trackStats_cam h.feat]

/-! ### Views -/

theorem obsViews_cam (m : FrameMgr K T) (f : Frame K T) {ns ns' : List (Nat × Vec2 K)} (h : ns.Perm ns') : Sim List.Perm (obsViews m f ns) (obsViews m f ns') := by
  induction h with
  | nil => exact .ok .nil
  | cons x _ ih =>
    obtain ⟨c, n⟩ := x
    rw [obsViews, obsViews]
    refine (Sim.of_eq rfl).bind (fun e _ _ _ e' => ?_); subst e'
    refine ih.bind (fun vs vs' _ _ hv => ?_)
    exact .ok (.cons _ hv)
  | swap x y l =>
    obtain ⟨c, n⟩ := x
    obtain ⟨c', n'⟩ := y
    simp only [obsViews]
    intro vs hvs
    obtain ⟨e1, h1, hvs⟩ := Res.bind_eq_ok.1 hvs
    obtain ⟨vs1, h2, hvs⟩ := Res.bind_eq_ok.1 hvs
    obtain ⟨e2, h3, h2⟩ := Res.bind_eq_ok.1 h2
    obtain ⟨vs2, h4, h2⟩ := Res.bind_eq_ok.1 h2
    cases h2
    cases hvs
    rw [h1, h3, h4]
    exact ⟨_, rfl, .swap _ _ _⟩
  | trans _ _ ih1 ih2 =>
    intro vs hvs
    obtain ⟨vs1, h1, p1⟩ := ih1 vs hvs
    obtain ⟨vs2, h2, p2⟩ := ih2 vs1 h1
    exact ⟨vs2, h2, p1.trans p2⟩

theorem featViews_cam (m : FrameMgr K T) (first : Nat) {os os' : List (Obs K)} (h : List.Forall₂ Obs.SameMap os os') : ∀ i, Sim List.Perm (featViews m first i os) (featViews m first i os') := by
  induction h with
  | nil => intro i; exact .ok .nil
  | cons ho _ ih =>
    intro i
    rw [featViews, featViews]
    refine (Sim.of_eq rfl).bind (fun f _ _ _ e => ?_); subst e
    refine (obsViews_cam m f ho.perm).bind (fun vs vs' _ _ hv => ?_)
    refine (ih (i + 1)).bind (fun r r' _ _ hr => ?_)
    exact .ok (hv.append hr)

theorem inFront_all (pw : Vec3 K) (vs : List (Triang.View K)) :
    Triang.inFront pw (vs.map (·.q)) (vs.map (·.p)) = .ok (vs.all (fun v => !ScalarFn.lt (v.q.inverse.rotate (pw - v.p)).z 0)) := by
  induction vs with
  | nil => rfl
  | cons v vs ih =>
    rw [List.map_cons, List.map_cons, Triang.inFront, List.all_cons, ih]
    split
    · rename_i h; rw [h]; rfl
    · rename_i h
      rw [Bool.not_eq_true] at h
      rw [h]; rfl

theorem inFront_perm (pw : Vec3 K) {vs vs' : List (Triang.View K)} (h : vs.Perm vs') :
    Triang.inFront pw (vs.map (·.q)) (vs.map (·.p)) = Triang.inFront pw (vs'.map (·.q)) (vs'.map (·.p)) := by
  rw [inFront_all, inFront_all]
  congr 1
  rw [Bool.eq_iff_iff, List.all_eq_true, List.all_eq_true]
  exact ⟨fun hh x hx => hh x (h.mem_iff.2 hx), fun hh x hx => hh x (h.mem_iff.1 hx)⟩

end Generic

section Real
variable {T : Type} [TimeOps T] [TimeCast T ℝ]

/-! ### Triangulation -/

/-- Inner products of the columns of stacked pairs of rows. -/
theorem stack2_columns (l : List (Nat → Nat → ℝ)) (i j : Nat) : ∑ x ∈ Finset.range (2 * l.length), (Triang.stack2 l).e x i * (Triang.stack2 l).e x j =
    (l.map (fun f => f 0 i * f 0 j + f 1 i * f 1 j)).sum := by
  induction l with
  | nil => simp
  | cons f l ih =>
    rw [List.length_cons, show 2 * (l.length + 1) = 2 * l.length + 1 + 1 from by omega, Finset.sum_range_succ', Finset.sum_range_succ', List.map_cons, List.sum_cons, ← ih]
    have e0 : ∀ y, (Triang.stack2 (f :: l)).e 0 y = f 0 y := fun y => by simp [Triang.stack2]
    have e1 : ∀ y, (Triang.stack2 (f :: l)).e (0 + 1) y = f 1 y := fun y => by simp [Triang.stack2]
    have e2 : ∀ x y, (Triang.stack2 (f :: l)).e (x + 1 + 1) y = (Triang.stack2 l).e x y := fun x y => by
      have : (x + 1 + 1) / 2 = x / 2 + 1 := by omega
      have h2 : (x + 1 + 1) % 2 = x % 2 := by omega
      simp only [Triang.stack2, this, h2, List.getElem?_cons_succ]
    rw [e0, e0, e1, e1, Finset.sum_congr rfl (fun x _ => by rw [e2, e2])]
    ring

theorem analytic_cam (ext : Ext ℝ) (hs : ext.SvdOfColumns) (pw : Vec3 ℝ) {vs vs' : List (Triang.View ℝ)} (h : vs.Perm vs') :
    Triang.analytic ext (vs.map (·.q)) (vs.map (·.p)) (vs.map (·.n)) pw = Triang.analytic ext (vs'.map (·.q)) (vs'.map (·.p)) (vs'.map (·.n)) pw := by
  unfold Triang.analytic
  rw [List.length_map, List.length_map, h.length_eq]
  split
  · rfl
  · rw [systemRows_views, systemRows_views, Res.bind_ok, Res.bind_ok]
    obtain ⟨s, hs1, hs2⟩ := hs (Triang.stack2 (vs.map (fun v => Triang.viewRow v.q v.p v.n))) (Triang.stack2 (vs'.map (fun v => Triang.viewRow v.q v.p v.n))) rfl rfl (fun i j _ _ => by
      rw [show (Triang.stack2 (vs.map (fun v => Triang.viewRow v.q v.p v.n))).rows = 2 * (vs.map (fun v => Triang.viewRow v.q v.p v.n)).length from rfl,
        show (Triang.stack2 (vs'.map (fun v => Triang.viewRow v.q v.p v.n))).rows = 2 * (vs'.map (fun v => Triang.viewRow v.q v.p v.n)).length from rfl, stack2_columns, stack2_columns]
      exact ((h.map _).map _).sum_eq)
    dsimp only
    generalize ext.svdLast (Triang.stack2 (vs.map (fun v => Triang.viewRow v.q v.p v.n))) = x at hs2 ⊢
    generalize ext.svdLast (Triang.stack2 (vs'.map (fun v => Triang.viewRow v.q v.p v.n))) = x' at hs2 ⊢
    have hs0 : s ≠ 0 := fun h0 => by rw [h0] at hs1; norm_num at hs1
    have habs : ScalarFn.fabs (x' 3) = ScalarFn.fabs (x 3) := by
      show |x' 3| = |x 3|
      have : |s| * |s| = 1 := by rw [← abs_mul, hs1, abs_one]
      have h1 : |s| = 1 := by nlinarith [abs_nonneg s]
      rw [hs2 3 (by omega), abs_mul, h1, one_mul]
    rw [habs]
    split
    · rfl
    · have hpw : (⟨x' 0 / x' 3, x' 1 / x' 3, x' 2 / x' 3⟩ : Vec3 ℝ) = ⟨x 0 / x 3, x 1 / x 3, x 2 / x 3⟩ := by
        rw [hs2 0 (by omega), hs2 1 (by omega), hs2 2 (by omega), hs2 3 (by omega), mul_div_mul_left _ _ hs0, mul_div_mul_left _ _ hs0, mul_div_mul_left _ _ hs0]
      rw [hpw, inFront_perm _ h]

theorem triangulate_cam (ext : Ext ℝ) (hs : ext.SvdOfColumns) {w w' : Win ℝ T} (h : w.Cam w') (r : Nat) :
    Sim (fun x y => x.1 = y.1 ∧ x.2.Cam y.2) (triangulate ext w r) (triangulate ext w' r) := by
  unfold triangulate
  have hr := h.feat.heap r
  dsimp only
  rw [← h.frm, ← hr.first, ← hr.pw]
  refine (featViews_cam w.frm _ hr.observes 0).bind (fun vs vs' _ _ hv => ?_)
  rw [← analytic_cam ext hs _ hv]
  refine (Sim.of_eq rfl).bind (fun x _ _ _ e => ?_); subst e
  exact .ok ⟨rfl, put_cam h.feat r ⟨hr.id, rfl, hr.observes, hr.observeNum, rfl, rfl⟩, rfl⟩

theorem selectLoop_cam (env : Env ℝ) (hs : env.ext.SvdOfColumns) (l : List (Nat × Nat)) : ∀ {w w' : Win ℝ T}, w.Cam w' → ∀ good pos,
    Sim (fun x y => x.1.Cam y.1 ∧ x.2 = y.2) (selectLoop env w good pos l) (selectLoop env w' good pos l) := by
  induction l with
  | nil => intro w w' h good pos; exact .ok ⟨h, rfl⟩
  | cons e l ih =>
    intro w w' h good pos
    rw [selectLoop, selectLoop]
    refine (triangulate_cam env.ext hs h e.2).bind (fun ⟨g, w1⟩ ⟨g', w1'⟩ _ _ k => ?_)
    obtain ⟨k1, k2⟩ := k
    dsimp only at k1 k2 ⊢
    subst k1
    split
    · exact ih k2 _ _
    · exact ih k2 _ _

theorem selectGood_cam (env : Env ℝ) (hs : env.ext.SvdOfColumns) (maxUsed : Nat) {w w' : Win ℝ T} (h : w.Cam w') (pos : Nat) :
    Sim (fun x y => x.1.Cam y.1 ∧ x.2 = y.2) (selectGood env maxUsed w pos) (selectGood env maxUsed w' pos) := by
  unfold selectGood
  rw [← h.frm]
  refine (Sim.of_eq rfl).bind (fun f _ _ _ e => ?_); subst e
  refine (selectLoop_cam env hs f.features h [] pos).bind (fun ⟨w1, g, p⟩ ⟨w1', g', p'⟩ _ _ k => ?_)
  obtain ⟨k1, k2⟩ := k
  dsimp only at k1 k2 ⊢
  cases k2
  exact .ok ⟨k1, rfl⟩

/-! ### The measurement equations -/

namespace Update
open Matrix

/-- What the rows of one observation add to the inner product of two columns. -/
noncomputable def obsGram (m : FrameMgr ℝ T) (f : Frame ℝ T) (front back : Nat) (pw : Vec3 ℝ) (i j : Nat) (x : Nat × Vec2 ℝ) : ℝ :=
  match measNorm m f f.id front back pw 0 (.zero 2 (hxCols m + 4)) x.1 x.2 with
  | .ok B => B.e 0 i * B.e 0 j + B.e 1 i * B.e 1 j
  | .ub _ => 0

/-- What the rows of all observations add to it. -/
noncomputable def obsSum (m : FrameMgr ℝ T) (first front back : Nat) (pw : Vec3 ℝ) (i j : Nat) : Nat → List (Obs ℝ) → ℝ
  | _, [] => 0
  | k, o :: os =>
    (match m.getFrame (add32 k first) with
      | some f => (o.norms.map (obsGram m f front back pw i j)).sum
      | none => 0) + obsSum m first front back pw i j (k + 1) os

theorem norms_gram (m : FrameMgr ℝ T) (f : Frame ℝ T) (front back : Nat) (pw : Vec3 ℝ) (a : DMat ℝ) (i j : Nat) (ns : List (Nat × Vec2 ℝ)) : ∀ row,
    (∀ k c n, ns[k]? = some (c, n) → ObsRows m f front back pw c n a (row + 2 * k)) →
      ∑ x ∈ Finset.range (2 * ns.length), a.e (row + x) i * a.e (row + x) j = (ns.map (obsGram m f front back pw i j)).sum := by
  induction ns with
  | nil => intro row _; simp
  | cons x ns ih =>
    intro row h
    obtain ⟨c, n⟩ := x
    obtain ⟨B, b1, b2⟩ := h 0 c n rfl
    rw [List.length_cons, show 2 * (ns.length + 1) = 2 * ns.length + 1 + 1 from by omega, Finset.sum_range_succ', Finset.sum_range_succ', List.map_cons, List.sum_cons,
      ← ih (row + 2) (fun k c' n' hk => by
        have := h (k + 1) c' n' (by simpa using hk)
        rwa [show row + 2 * (k + 1) = row + 2 + 2 * k from by omega] at this)]
    have e0 : ∀ y, a.e (row + 0) y = B.e 0 y := fun y => by simpa using b2 0 (by omega) y
    have e1 : ∀ y, a.e (row + (0 + 1)) y = B.e 1 y := fun y => by simpa using b2 1 (by omega) y
    have eo : obsGram m f front back pw i j (c, n) = B.e 0 i * B.e 0 j + B.e 1 i * B.e 1 j := by
      unfold obsGram
      rw [b1]
    rw [e0, e0, e1, e1, eo, Finset.sum_congr rfl (fun x _ => by rw [show row + (x + 1 + 1) = row + 2 + x from by omega])]
    ring

theorem observes_gram (m : FrameMgr ℝ T) (first front back : Nat) (pw : Vec3 ℝ) (a : DMat ℝ) (i j : Nat) (os : List (Obs ℝ)) : ∀ row k0,
    (∀ q o, os[q]? = some o → ∃ f, m.getFrame (add32 (k0 + q) first) = some f ∧
      ∀ k c n, o.norms[k]? = some (c, n) → ObsRows m f front back pw c n a (row + 2 * (totalObs (os.take q) + k))) →
      ∑ x ∈ Finset.range (2 * totalObs os), a.e (row + x) i * a.e (row + x) j = obsSum m first front back pw i j k0 os := by
  induction os with
  | nil => intro row k0 _; simp [totalObs, obsSum]
  | cons o os ih =>
    intro row k0 h
    obtain ⟨f, f1, f2⟩ := h 0 o rfl
    rw [Nat.add_zero] at f1
    have htot : totalObs (o :: os) = o.norms.length + totalObs os := by simp [totalObs]
    rw [htot, Nat.mul_add, Finset.sum_range_add, obsSum, f1]
    dsimp only
    rw [norms_gram m f front back pw a i j o.norms row (fun k c n hk => by
        have := f2 k c n hk
        rwa [List.take_zero, show totalObs ([] : List (Obs ℝ)) = 0 from rfl, Nat.zero_add] at this),
      ← ih (row + 2 * o.norms.length) (k0 + 1) (fun q o' hq => by
        obtain ⟨f', g1, g2⟩ := h (q + 1) o' (by simpa using hq)
        refine ⟨f', by rwa [show k0 + (q + 1) = k0 + 1 + q from by omega] at g1, fun k c n hk => ?_⟩
        have := g2 k c n hk
        rwa [show row + 2 * (totalObs ((o :: os).take (q + 1)) + k) = row + 2 * o.norms.length + 2 * (totalObs (os.take q) + k) from by
          simp only [List.take_succ_cons, totalObs, List.map_cons, List.sum_cons]; omega] at this)]
    congr 1
    exact Finset.sum_congr rfl (fun x _ => by rw [Nat.add_assoc])

theorem obsSum_cam (m : FrameMgr ℝ T) (first front back : Nat) (pw : Vec3 ℝ) (i j : Nat) {os os' : List (Obs ℝ)} (h : List.Forall₂ Obs.SameMap os os') : ∀ k,
    obsSum m first front back pw i j k os = obsSum m first front back pw i j k os' := by
  induction h with
  | nil => intro k; rfl
  | cons ho _ ih =>
    intro k
    rw [obsSum, obsSum, ih]
    cases m.getFrame (add32 k first) with
    | none => rfl
    | some f =>
      dsimp only
      rw [(ho.perm.map _).sum_eq]

theorem totalObs_cam {os os' : List (Obs ℝ)} (h : List.Forall₂ Obs.SameMap os os') : totalObs os = totalObs os' := by
  induction h with
  | nil => rfl
  | cons ho _ ih =>
    unfold totalObs at ih ⊢
    rw [List.map_cons, List.map_cons, List.sum_cons, List.sum_cons, ih, ho.length]

theorem featOk_cam {m : FrameMgr ℝ T} {f f' : Feature ℝ} (h : f.Cam f') (hf : FeatOk m f) : FeatOk m f' := by
  have ht := totalObs_cam h.observes
  refine ⟨by rw [← h.observeNum, ← ht]; exact hf.num, by rw [← ht]; exact hf.two, by rw [← ht]; exact hf.lt, fun q o ho => ?_⟩
  rcases forall₂_idx h.observes q with ⟨h1, h2⟩ | ⟨a, b, h1, h2, h3⟩
  · rw [h2] at ho; cases ho
  · rw [h2] at ho
    cases ho
    obtain ⟨r1, r2⟩ := hf.res q a h1
    exact ⟨by rw [← h.first]; exact r1, fun x hx => r2 x (h3.perm.mem_iff.2 hx)⟩

/-- Projected equations of two matrices with the same inner products of columns, whose landmark columns are independent. -/
theorem project_columns (ext : Ext ℝ) (a a' : DMat ℝ) (m c : Nat) (hr : a.rows = m + 3) (hr' : a'.rows = m + 3) (hc : a.cols = c + 3) (hc' : a'.cols = c + 3)
    (hq : ∀ h : DMat ℝ, h.rows = m + 3 → IsQR h (ext.qrQ h)) (hg : ∀ i j, gramAt a i j = gramAt a' i j) (hrank : ((a.toM (m + 3) 3)ᵀ * a.toM (m + 3) 3).det ≠ 0) :
    ∃ b b', project ext a = .ok b ∧ project ext a' = .ok b' ∧ ∀ i j, i < c → j < c → gramAt b i j = gramAt b' i j := by
  obtain ⟨b, N, b1, b2, b3, b4, b5, b6⟩ := C46_projection ext a m c hr hc hq
  obtain ⟨b', N', c1, c2, c3, c4, c5, c6⟩ := C46_projection ext a' m c hr' hc' hq
  refine ⟨b, b', b1, c1, fun i j hi hj => ?_⟩
  have hcols : ∀ (n n' : Nat) (s s' : Nat), (Matrix.of fun (i : Fin (m + 3)) (j : Fin n) => a.e i (s + j))ᵀ * (Matrix.of fun (i : Fin (m + 3)) (j : Fin n') => a.e i (s' + j)) =
      (Matrix.of fun (i : Fin (m + 3)) (j : Fin n) => a'.e i (s + j))ᵀ * (Matrix.of fun (i : Fin (m + 3)) (j : Fin n') => a'.e i (s' + j)) := by
    intro n n' s s'
    ext x y
    have := hg (s + x) (s' + y)
    unfold gramAt at this
    rw [hr, hr', Finset.sum_range, Finset.sum_range] at this
    simpa [Matrix.mul_apply] using this
  have h0 : ∀ d : DMat ℝ, d.toM (m + 3) 3 = Matrix.of fun (i : Fin (m + 3)) (j : Fin 3) => d.e i (0 + j) := fun d => by ext x y; simp [DMat.toM]
  have hM := Matrix.nonsing_inv_mul _ (isUnit_iff_ne_zero.2 hrank)
  have e1 := null_projector _ _ hM N b4 b5
  have hHH : (a.toM (m + 3) 3)ᵀ * a.toM (m + 3) 3 = (a'.toM (m + 3) 3)ᵀ * a'.toM (m + 3) 3 := by rw [h0, h0]; exact hcols 3 3 0 0
  have hM' := hM
  rw [hHH] at hM'
  have e2 := null_projector _ _ hM' N' c4 c5
  rw [← hHH] at e2
  generalize ((a.toM (m + 3) 3)ᵀ * a.toM (m + 3) 3)⁻¹ = M at *
  have e3 : (b.toM b.rows c)ᵀ * b.toM b.rows c = (b'.toM b'.rows c)ᵀ * b'.toM b'.rows c := by
    have hx : ∀ d : DMat ℝ, (Matrix.of fun (i : Fin (m + 3)) (j : Fin c) => d.e i (3 + j))ᵀ * (1 - d.toM (m + 3) 3 * M * (d.toM (m + 3) 3)ᵀ) * (Matrix.of fun (i : Fin (m + 3)) (j : Fin c) => d.e i (3 + j)) =
        (Matrix.of fun (i : Fin (m + 3)) (j : Fin c) => d.e i (3 + j))ᵀ * (Matrix.of fun (i : Fin (m + 3)) (j : Fin c) => d.e i (3 + j)) -
          ((Matrix.of fun (i : Fin (m + 3)) (j : Fin c) => d.e i (3 + j))ᵀ * (Matrix.of fun (i : Fin (m + 3)) (j : Fin 3) => d.e i (0 + j))) * M *
            ((Matrix.of fun (i : Fin (m + 3)) (j : Fin 3) => d.e i (0 + j))ᵀ * (Matrix.of fun (i : Fin (m + 3)) (j : Fin c) => d.e i (3 + j))) := by
      intro d
      rw [h0, Matrix.mul_sub, Matrix.sub_mul, Matrix.mul_one]
      simp only [Matrix.mul_assoc]
    rw [b2, c2, b6, c6, Matrix.transpose_mul, Matrix.transpose_mul]
    calc _ = (Matrix.of fun (i : Fin (m + 3)) (j : Fin c) => a.e i (3 + j))ᵀ * (Nᵀ * N) * (Matrix.of fun (i : Fin (m + 3)) (j : Fin c) => a.e i (3 + j)) := by simp only [Matrix.mul_assoc]
      _ = (Matrix.of fun (i : Fin (m + 3)) (j : Fin c) => a'.e i (3 + j))ᵀ * (N'ᵀ * N') * (Matrix.of fun (i : Fin (m + 3)) (j : Fin c) => a'.e i (3 + j)) := by
        rw [e1, e2, hx a, hx a', hcols, hcols c 3, hcols 3 c]
      _ = _ := by simp only [Matrix.mul_assoc]
  rw [gram_mul, gram_mul] at e3
  exact congrFun (congrFun e3 ⟨i, hi⟩) ⟨j, hj⟩

theorem measLoop_columns (m : FrameMgr ℝ T) (b : Nat) (hw : WinOk m b) {f f' : Feature ℝ} (h : f.Cam f') (hok : FeatOk m f) :
    ∃ a a', measLoop m f 0 0 (.zero (mul32 f.observeNum 2) (hxCols m + 4)) f.observes = .ok (some a) ∧
      measLoop m f' 0 0 (.zero (mul32 f'.observeNum 2) (hxCols m + 4)) f'.observes = .ok (some a') ∧
      a.rows = 2 * totalObs f.observes ∧ a'.rows = a.rows ∧ a.cols = hxCols m + 4 ∧ a'.cols = a.cols ∧ ∀ i j, gramAt a i j = gramAt a' i j := by
  obtain ⟨g, hg⟩ : ∃ g, m.frames.head? = some g := ⟨_, List.head?_eq_some_head hw.ne⟩
  obtain ⟨l, hl⟩ : ∃ l, m.frames.getLast? = some l := ⟨_, List.getLast?_eq_some_getLast hw.ne⟩
  have one : ∀ ft : Feature ℝ, FeatOk m ft → ∃ a, measLoop m ft 0 0 (.zero (mul32 ft.observeNum 2) (hxCols m + 4)) ft.observes = .ok (some a) ∧ a.rows = 2 * totalObs ft.observes ∧
      a.cols = hxCols m + 4 ∧ ∀ i j, gramAt a i j = obsSum m ft.first g.id l.id ft.pw i j 0 ft.observes := by
    intro ft hft
    have hm : mul32 ft.observeNum 2 = 2 * totalObs ft.observes := by
      have := hft.lt
      rw [hft.num, mul32_of_lt (by omega)]; omega
    obtain ⟨a, m1, m2, m3, -, -, m6⟩ := measLoop_spec m ft b g l hw.ids hw.lt hg hl ft.observes 0 0 (.zero (mul32 ft.observeNum 2) (hxCols m + 4)) hft.res rfl
      (by simp [hm]) (fun _ _ _ => rfl)
    simp only [DMat.zero_rows, DMat.zero_cols] at m2 m3
    rw [hm] at m2
    refine ⟨a, m1, m2, m3, fun i j => ?_⟩
    rw [gramAt, m2, ← observes_gram m ft.first g.id l.id ft.pw a i j ft.observes 0 0 m6]
    exact Finset.sum_congr rfl (fun x _ => by rw [Nat.zero_add])
  obtain ⟨a, a1, a2, a3, a4⟩ := one f hok
  obtain ⟨a', b1, b2, b3, b4⟩ := one f' (featOk_cam h hok)
  refine ⟨a, a', a1, b1, a2, by rw [a2, b2, totalObs_cam h.observes], a3, by rw [a3, b3], fun i j => ?_⟩
  rw [a4, b4, ← h.first, ← h.pw]
  exact obsSum_cam m _ _ _ _ _ _ h.observes 0

theorem featEq_cam (ext : Ext ℝ) (hext : GoodExt ext) {w w' : Win ℝ T} (h : w.Cam w') (b : Nat) (hw : WinOk w.frm b) (r : Nat) (hok : FeatOk w.frm (w.feat.heap r))
    (hrank : LandmarkRank w.frm (w.feat.heap r)) (i j : Nat) (hi : i ≤ hxCols w.frm) (hj : j ≤ hxCols w.frm) : gramAt (featEq ext w r) i j = gramAt (featEq ext w' r) i j := by
  obtain ⟨a, a', a1, a2, a3, a4, a5, a6, a7⟩ := measLoop_columns w.frm b hw (h.feat.heap r) hok
  have h2 := hok.two
  obtain ⟨m, hr⟩ : ∃ m, a.rows = m + 3 := ⟨a.rows - 3, by omega⟩
  have hdet := hrank a a1
  rw [hr] at hdet
  obtain ⟨p, p', q1, q2, q3⟩ := project_columns ext a a' m (hxCols w.frm + 1) hr (by omega) (by omega) (by omega) (fun x _ => hext.qr x) a7 hdet
  have f1 : featEq ext w r = p := by
    unfold featEq measFeature
    rw [a1, Res.bind_ok]
    dsimp only
    rw [q1, Res.bind_ok]
  have f2 : featEq ext w' r = p' := by
    unfold featEq measFeature
    rw [← h.frm, a2, Res.bind_ok]
    dsimp only
    rw [q2, Res.bind_ok]
  rw [f1, f2]
  exact q3 i j (by omega) (by omega)

theorem startRow_cam {w w' : Win ℝ T} (h : w.Cam w') (fs : List Nat) (n : Nat) : startRow w fs n = startRow w' fs n := by
  unfold startRow
  simp only [fun r => (h.feat.heap r).observeNum]

/-- The Kalman steps from two windows. -/
theorem kalman_cam (env : Env ℝ) (hext : GoodExt env.ext) (noise : ℝ) (P P' : DMat ℝ) {w w' : Win ℝ T} (h : w.Cam w') (b : Nat) (hw : WinOk w.frm b) (fs : List Nat)
    (hok : ∀ r ∈ fs, FeatOk w.frm (w.feat.heap r)) (hrank : ∀ r ∈ fs, LandmarkRank w.frm (w.feat.heap r)) (hlt : startRow w fs fs.length < two32) (h1 : P.rows = hxCols w.frm) (h2 : P.cols = hxCols w.frm)
    (h3 : P'.rows = hxCols w.frm) (h4 : P'.cols = hxCols w.frm) (hPP : ∀ i j, i < hxCols w.frm → j < hxCols w.frm → P.e i j = P'.e i j)
    (hP : SymmTo (hxCols w.frm) P.e) : Both KSame (solve env noise P w fs) (solve env noise P' w' fs) := by
  obtain ⟨a, a1, a2, a3, a4⟩ := measure_gram env hext w b hw fs hok hlt
  obtain ⟨c, c1, c2, c3, c4⟩ := measure_gram env hext w' b (by rw [← h.frm]; exact hw) fs (fun r hr => by rw [← h.frm]; exact featOk_cam (h.feat.heap r) (hok r hr))
    (by rw [← startRow_cam h]; exact hlt)
  rw [← h.frm] at c2 c3 c4
  have hsum : ∀ i j, i ≤ hxCols w.frm → j ≤ hxCols w.frm → (fs.map (fun r => gramAt (featEq env.ext w r) i j)).sum = (fs.map (fun r => gramAt (featEq env.ext w' r) i j)).sum := by
    intro i j hi hj
    congr 1
    exact List.map_congr_left (fun r hr => featEq_cam env.ext hext h b hw r (hok r hr) (hrank r hr) i j hi hj)
  have hPt : (P.toM (hxCols w.frm) (hxCols w.frm))ᵀ = P.toM (hxCols w.frm) (hxCols w.frm) := by
    ext i j
    exact hP j i j.2 i.2
  obtain ⟨k, k', k1, k2, k3, k4, k5, k6, k7, k8, k9, k10, k11, k12⟩ := kalman_gram env.ext env.ext hext hext noise P P' a c (hxCols w.frm) h1 h2 h3 h4
    (by ext i j; exact (hPP i j i.2 j.2).symm) hPt a2 c2
    (by rw [a3, c3]; ext i j; exact hsum i j i.2.le j.2.le) (by rw [a4, c4]; ext i j; exact hsum i _ i.2.le le_rfl)
  unfold solve
  rw [a1, c1]
  simp only [Res.bind_ok]
  rw [k1, k2]
  refine ⟨⟨by rw [k3, k4], by rw [k5, k6], fun i j hi hj => ?_⟩, ⟨by rw [k7, k8], by rw [k9, k10], fun i j hi hj => ?_⟩⟩
  · obtain rfl : j = 0 := by rw [k5] at hj; omega
    exact congrFun (congrFun k11 ⟨i, by rw [← k3]; exact hi⟩) 0
  · exact congrFun (congrFun k12 ⟨i, by rw [← k7]; exact hi⟩) ⟨j, by rw [← k9]; exact hj⟩

end Update

end Real
end Vio
