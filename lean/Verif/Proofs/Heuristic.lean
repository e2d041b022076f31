import Verif.Proofs.PatternMatch

namespace Verif.Proofs
open Verif.Py Verif.Model Verif.Spec

/-! ### how the mutable bound evolves -/

/-- Relation between the bound `m` before, the results, and the bound `m'` after. -/
structure Post (pr m : Int) (rs : List HRes) (m' : Int) : Prop where
  le : m' ≤ m
  bounds : ∀ r ∈ rs, m' + pr ≤ r.count ∧ r.count ≤ m
  last : (rs = [] ∧ m' = m) ∨ ∃ r ∈ rs, r.count = m' + pr

theorem Post.nil (pr m : Int) : Post pr m [] m := ⟨Int.le_refl _, by simp, Or.inl ⟨rfl, rfl⟩⟩

theorem Post.append {pr m m1 m2 : Int} {r1 r2 : List HRes} (a : Post pr m r1 m1)
    (b : Post pr m1 r2 m2) : Post pr m (r1 ++ r2) m2 := by
  refine ⟨Int.le_trans b.le a.le, ?_, ?_⟩
  · intro r hr
    rcases List.mem_append.1 hr with hr | hr
    · have := a.bounds r hr
      have := b.le
      omega
    · have := b.bounds r hr
      have := a.le
      omega
  · rcases b.last with ⟨h1, h2⟩ | ⟨r, hr, h⟩
    · subst h1; subst h2
      simpa using a.last
    · exact Or.inr ⟨r, by simp [hr], h⟩

theorem Post.map_cons {pr m m' : Int} {rs : List HRes} (u : TileSet) (a : Post pr m rs m') :
    Post pr m (rs.map (HRes.cons u)) m' := by
  refine ⟨a.le, ?_, ?_⟩
  · intro r hr
    obtain ⟨r', hr', rfl⟩ := List.mem_map.1 hr
    exact a.bounds r' hr'
  · rcases a.last with ⟨h1, h2⟩ | ⟨r, hr, h⟩
    · left; simp [h1, h2]
    · exact Or.inr ⟨HRes.cons u r, List.mem_map.2 ⟨r, hr, rfl⟩, h⟩

theorem hasWin_iff (w : Pattern) : w.hasWin = true ↔ w.needUnits = 0 := by
  cases w <;> simp [Pattern.hasWin, Pattern.needUnits]

/-- tiles lists of the search are real -/
def RealTiles (l : List Tile) : Prop := ∀ t ∈ l, RealTile t

theorem hUnits_post {pr : Int} {rec : TileSet → Pattern → Int → List HRes × Int} {hand : TileSet}
    (hh : HD hand) {w : Pattern} {can : Int}
    (hrec : ∀ hand' w' m, HD hand' → (w'.hasWin = true → borrow (Counter.get hand') ≤ m) →
      Post pr m (rec hand' w' m).1 (rec hand' w' m).2)
    {t : Tile} (ht : RealTile t) (es : List (TileSet × Pattern)) (hes : ∀ e ∈ es, e ∈ w.nextStates t)
    (m : Int) :
    Post pr m (hUnits rec hand (borrowedTileCount hand) ((w.needUnits : Int) * can) can es m).1
      (hUnits rec hand (borrowedTileCount hand) ((w.needUnits : Int) * can) can es m).2.1 := by
  induction es generalizing m with
  | nil => exact Post.nil pr m
  | cons e es ih =>
    simp only [hUnits]
    split
    · rename_i hck
      have hu := hes e (by simp)
      obtain ⟨u, w'⟩ := e
      obtain ⟨g, hg, hf, hst, rfl⟩ := (mem_nextStates ht).1 hu
      have hd := hh.subUnit hg
      have h2 := ih (fun e he => hes e (by simp [he]))
      split
      · rename_i hb
        have hp := hrec (Counter.subtract hand (unitOf g)) w' m hd (by
          intro hw
          have h3 := (hasWin_iff w').1 hw
          have h4 := step_needUnits hst
          have h5 : (w.needUnits : Int) * can = can := by
            have : (w.needUnits : Int) = 1 := by omega
            rw [this]; omega
          rw [← hd.borrowed]
          simp only at hb
          omega)
        exact (hp.map_cons (unitOf g)).append (h2 _)
      · simp only [List.map_nil, List.nil_append]
        exact h2 m
    · exact Post.nil pr m

theorem hTiles_post {pr : Int} {rec : (Nat → List Tile) → TileSet → Pattern → Int → List HRes × Int}
    {hand : TileSet} (hh : HD hand) {w : Pattern} {can : Nat} {groups : Nat → List Tile}
    (hrec : ∀ gr hand' w' m, (∀ k, RealTiles (gr k)) → HD hand' →
      (w'.hasWin = true → borrow (Counter.get hand') ≤ m) →
      Post pr m (rec gr hand' w' m).1 (rec gr hand' w' m).2)
    (hgr : ∀ k, RealTiles (groups k)) (l : List Tile) (hl : RealTiles l) (m : Int) :
    Post pr m (hTiles rec w groups hand (borrowedTileCount hand) ((w.needUnits : Int) * can) can l m).1
      (hTiles rec w groups hand (borrowedTileCount hand) ((w.needUnits : Int) * can) can l m).2.1 := by
  induction l generalizing m with
  | nil => exact Post.nil pr m
  | cons t rest ih =>
    simp only [hTiles]
    have h1 := hUnits_post (pr := pr) (can := can) (w := w)
      (rec := rec (fun i => if i = can then t :: rest else groups i)) hh
      (fun hand' w' m => hrec _ hand' w' m (by
        intro k
        show RealTiles (if k = can then t :: rest else groups k)
        split
        · exact hl
        · exact hgr k))
      (hl t (by simp)) (w.nextStates t) (fun _ h => h) m
    split
    · exact h1
    · exact h1.append (ih (fun x hx => hl x (by simp [hx])) _)

theorem hStages_post {pr : Int}
    {rec : Nat → (Nat → List Tile) → TileSet → Pattern → Int → List HRes × Int}
    {hand : TileSet} (hh : HD hand) {w : Pattern} {groups : Nat → List Tile}
    (hrec : ∀ st gr hand' w' m, (∀ k, RealTiles (gr k)) → HD hand' →
      (w'.hasWin = true → borrow (Counter.get hand') ≤ m) →
      Post pr m (rec st gr hand' w' m).1 (rec st gr hand' w' m).2)
    (hgr : ∀ k, RealTiles (groups k)) (cans : List Nat) (m : Int) :
    Post pr m (hStages rec w groups hand (borrowedTileCount hand) cans m).1
      (hStages rec w groups hand (borrowedTileCount hand) cans m).2 := by
  induction cans generalizing m with
  | nil => exact Post.nil pr m
  | cons can rest ih =>
    simp only [hStages]
    have h1 := hTiles_post (pr := pr) (rec := rec can) (w := w) (can := can) hh
      (fun gr => hrec can gr) hgr (groups can) (hgr can) m
    split
    · exact h1
    · exact h1.append (ih _)

theorem hSel_post {ig : Bool} {limits : TileSet} {pr : Int} (hpr : 0 ≤ pr) (fuel : Nat) :
    ∀ stage groups hand w m, (∀ k, RealTiles (groups k)) → HD hand →
      (w.hasWin = true → borrow (Counter.get hand) ≤ m) →
      Post pr m (hSel ig limits pr fuel stage groups hand w m).1
        (hSel ig limits pr fuel stage groups hand w m).2 := by
  induction fuel with
  | zero => intro stage groups hand w m _ _ _; exact Post.nil pr m
  | succ fuel ih =>
    intro stage groups hand w m hgr hh hw
    simp only [hSel]
    split
    · exact Post.nil pr m
    · split
      · rename_i hwin
        have h1 := hw hwin
        have h2 : Counter.total (Counter.neg hand) = borrow (Counter.get hand) := hh.borrowed
        refine ⟨?_, ?_, ?_⟩
        · rw [h2]; simp only; omega
        · intro r hr
          simp only [List.mem_singleton] at hr
          subst hr
          simp only [h2]; omega
        · right
          exact ⟨_, List.mem_singleton.2 rfl, by simp⟩
      · exact hStages_post hh (fun st gr hand' w' m => ih st gr hand' w' m) hgr _ m

/-! ### soundness -/

/-- what one result says about the hand it was found from -/
structure HOk (ig : Bool) (limits : TileSet) (w : Pattern) (hand : TileSet) (r : HRes)
    (D : List Group) : Prop where
  legal : Legal w D
  units : r.units = D.map unitOf
  count : r.count = deficit D (Counter.get hand)
  hd : HD r.borrowed
  pos : AllPos r.borrowed
  borrowed : ∀ k, Counter.get r.borrowed k = Max.max 0 (need D k - Counter.get hand k)
  limit : ig = true → ∀ k, k ∈ Counter.keys hand ∨ need D k ≠ 0 →
    Counter.get limits k ≤ Counter.get hand k - need D k

theorem HOk.cons {ig : Bool} {limits : TileSet} {w w' : Pattern} {hand : TileSet} {g : Group}
    (hg : g.Proper) (hst : step w g = some w') {r : HRes} {D : List Group}
    (h : HOk ig limits w' (Counter.subtract hand (unitOf g)) r D) :
    HOk ig limits w hand (HRes.cons (unitOf g) r) (g :: D) := by
  refine ⟨legal_cons.2 ⟨hg, w', hst, h.legal⟩, by simp [HRes.cons, h.units], ?_, h.hd, h.pos, ?_, ?_⟩
  · show r.count = _
    rw [h.count, deficit_cons]
    exact deficit_congr (fun k _ => get_subUnit hand g k)
  · intro k
    show Counter.get r.borrowed k = _
    rw [h.borrowed k, get_subUnit, need_cons]
    omega
  · intro hig k hk
    have h2 := Group.count_nonneg g k
    have := h.limit hig k (by
      rcases hk with hk | hk
      · exact Or.inl ((keys_subUnit _ _ _).2 (Or.inl hk))
      · by_cases h0 : g.count k = 0
        · right; rw [need_cons, h0] at hk; simpa using hk
        · exact Or.inl ((keys_subUnit _ _ _).2 (Or.inr h0)))
    rw [get_subUnit] at this
    rw [need_cons]; omega

theorem hUnits_sound {ig : Bool} {limits : TileSet} {w : Pattern}
    {rec : TileSet → Pattern → Int → List HRes × Int} {hand : TileSet} (hh : HD hand)
    (hrec : ∀ hand' w' m r, HD hand' → r ∈ (rec hand' w' m).1 → ∃ D, HOk ig limits w' hand' r D)
    {basic mu can : Int} {t : Tile} (ht : RealTile t) (es : List (TileSet × Pattern))
    (hes : ∀ e ∈ es, e ∈ w.nextStates t) (m : Int) {r : HRes}
    (hr : r ∈ (hUnits rec hand basic mu can es m).1) : ∃ D, HOk ig limits w hand r D := by
  induction es generalizing m with
  | nil => simp [hUnits] at hr
  | cons e es ih =>
    simp only [hUnits] at hr
    split at hr
    · simp only [List.mem_append] at hr
      rcases hr with hr | hr
      · obtain ⟨r', hr', rfl⟩ := List.mem_map.1 hr
        split at hr'
        · obtain ⟨u, w'⟩ := e
          obtain ⟨g, hg, hf, hst, rfl⟩ := (mem_nextStates ht).1 (hes (u, w') (by simp))
          obtain ⟨D, hD⟩ := hrec _ _ _ _ (hh.subUnit hg) hr'
          exact ⟨g :: D, HOk.cons hg hst hD⟩
        · simp at hr'
      · exact ih (fun e he => hes e (by simp [he])) _ hr
    · simp at hr

theorem hTiles_sound {ig : Bool} {limits : TileSet} {w : Pattern}
    {rec : (Nat → List Tile) → TileSet → Pattern → Int → List HRes × Int} {hand : TileSet}
    (hh : HD hand) {groups : Nat → List Tile} (hgr : ∀ k, RealTiles (groups k))
    (hrec : ∀ gr hand' w' m r, (∀ k, RealTiles (gr k)) → HD hand' → r ∈ (rec gr hand' w' m).1 →
      ∃ D, HOk ig limits w' hand' r D)
    {basic mu : Int} {can : Nat} (l : List Tile) (hl : RealTiles l) (m : Int) {r : HRes}
    (hr : r ∈ (hTiles rec w groups hand basic mu can l m).1) : ∃ D, HOk ig limits w hand r D := by
  induction l generalizing m with
  | nil => simp [hTiles] at hr
  | cons t rest ih =>
    have h1 := fun (r : HRes) (hr : r ∈ (hUnits (rec (fun i => if i = can then t :: rest else groups i))
        hand basic mu can (w.nextStates t) m).1) => hUnits_sound hh (ig := ig) (limits := limits)
      (fun hand' w' m r => hrec _ hand' w' m r (by
        intro k
        show RealTiles (if k = can then t :: rest else groups k)
        split
        · exact hl
        · exact hgr k)) (hl t (by simp)) (w.nextStates t) (fun _ h => h) m hr
    simp only [hTiles] at hr
    split at hr
    · exact h1 r hr
    · rcases List.mem_append.1 hr with hr | hr
      · exact h1 r hr
      · exact ih (fun x hx => hl x (by simp [hx])) _ hr

theorem hStages_sound {ig : Bool} {limits : TileSet} {w : Pattern}
    {rec : Nat → (Nat → List Tile) → TileSet → Pattern → Int → List HRes × Int} {hand : TileSet}
    (hh : HD hand) {groups : Nat → List Tile} (hgr : ∀ k, RealTiles (groups k))
    (hrec : ∀ st gr hand' w' m r, (∀ k, RealTiles (gr k)) → HD hand' → r ∈ (rec st gr hand' w' m).1 →
      ∃ D, HOk ig limits w' hand' r D)
    {basic : Int} (cans : List Nat) (m : Int) {r : HRes}
    (hr : r ∈ (hStages rec w groups hand basic cans m).1) : ∃ D, HOk ig limits w hand r D := by
  induction cans generalizing m with
  | nil => simp [hStages] at hr
  | cons can rest ih =>
    simp only [hStages] at hr
    split at hr
    · exact hTiles_sound hh hgr (hrec can) (groups can) (hgr can) m hr
    · rcases List.mem_append.1 hr with hr | hr
      · exact hTiles_sound hh hgr (hrec can) (groups can) (hgr can) m hr
      · exact ih _ hr

theorem hSel_sound {ig : Bool} {limits : TileSet} {pr : Int} (fuel : Nat) :
    ∀ stage groups hand w m r, (∀ k, RealTiles (groups k)) → HD hand →
      r ∈ (hSel ig limits pr fuel stage groups hand w m).1 → ∃ D, HOk ig limits w hand r D := by
  induction fuel with
  | zero => intro stage groups hand w m r _ _ hr; simp [hSel] at hr
  | succ fuel ih =>
    intro stage groups hand w m r hgr hh hr
    simp only [hSel] at hr
    split at hr
    · simp at hr
    · rename_i hlim
      split at hr
      · rename_i hw
        simp only [List.mem_singleton] at hr
        subst hr
        refine ⟨[], legal_nil.2 hw, rfl, ?_, hh.neg, AllPos_neg _, ?_, ?_⟩
        · rw [deficit_nil]; exact hh.borrowed
        · intro k
          show Counter.get (Counter.neg hand) k = _
          rw [Counter.get_neg hh.wf]; simp
        · intro hig k hk
          have hwl : withinLimits limits hand = true := by simpa [hig] using hlim
          rcases hk with hk | hk
          · have := (withinLimits_iff hh.wf).1 hwl k hk
            simp; omega
          · simp at hk
      · exact hStages_sound hh hgr (fun st gr hand' w' m r => ih st gr hand' w' m r) _ m hr

/-! ### completeness -/

/-- invariant of a decomposition still to be found -/
structure HInv (ig : Bool) (limits : TileSet) (w : Pattern) (hand : TileSet) (stage : Nat)
    (groups : Nat → List Tile) (D : List Group) : Prop where
  legal : Legal w D
  stage : ∀ g ∈ D, (stage : Int) ≤ marg (Counter.get hand) g
  found : ∀ g ∈ D, ∀ k : Nat, marg (Counter.get hand) g ≤ k → ∃ t ∈ groups k, t.view = g.first
  limit : ig = true → ∀ k, k ∈ Counter.keys hand ∨ need D k ≠ 0 →
    Counter.get limits k ≤ Counter.get hand k - need D k

/-- the decomposition was yielded -/
def Found (rs : List HRes) (D : List Group) : Prop :=
  ∃ r ∈ rs, ∃ D' : List Group, D'.Perm D ∧ r.units = D'.map unitOf

theorem exists_argmin {D : List Group} (f : Group → Int) (h : D ≠ []) :
    ∃ g ∈ D, ∀ g' ∈ D, f g ≤ f g' := by
  induction D with
  | nil => exact absurd rfl h
  | cons a D ih =>
    by_cases hD : D = []
    · subst hD; exact ⟨a, by simp, by simp⟩
    · obtain ⟨g, hg, hm⟩ := ih hD
      by_cases hlt : f g ≤ f a
      · refine ⟨g, by simp [hg], ?_⟩
        intro g' hg'
        rcases List.mem_cons.1 hg' with rfl | hg'
        · exact hlt
        · exact hm g' hg'
      · refine ⟨a, by simp, ?_⟩
        intro g' hg'
        rcases List.mem_cons.1 hg' with rfl | hg'
        · exact Int.le_refl _
        · have := hm g' hg'; omega

theorem exists_pick {D : List Group} (f : Group → Int) (h : D ≠ []) :
    ∃ g ∈ D, (∀ g' ∈ D, f g ≤ f g') ∧ ∀ g' ∈ D, f g' = f g → ¬ Kind.lt g'.first g.first := by
  obtain ⟨g0, hg0, hm⟩ := exists_argmin f h
  obtain ⟨g, hg, hmin⟩ := exists_min_first (D := D.filter (fun g => decide (f g = f g0)))
    (List.ne_nil_of_mem (List.mem_filter.2 ⟨hg0, by simp⟩))
  obtain ⟨h1, h2⟩ := List.mem_filter.1 hg
  have h2 : f g = f g0 := by simpa using h2
  refine ⟨g, h1, fun g' hg' => by rw [h2]; exact hm g' hg', fun g' hg' he => ?_⟩
  exact hmin g' (List.mem_filter.2 ⟨hg', by simp [he, h2]⟩)

theorem hUnits_stop {rec : TileSet → Pattern → Int → List HRes × Int} {hand : TileSet}
    {basic mu can : Int} (es : List (TileSet × Pattern)) (m : Int)
    (h : (hUnits rec hand basic mu can es m).2.2 = true) :
    (hUnits rec hand basic mu can es m).2.1 < basic + mu := by
  induction es generalizing m with
  | nil => simp [hUnits] at h
  | cons e es ih =>
    simp only [hUnits] at h ⊢
    split at h
    · rename_i hc
      rw [if_pos hc]
      exact ih _ h
    · rename_i hc
      rw [if_neg hc]
      show m < _
      omega

theorem hTiles_stop {rec : (Nat → List Tile) → TileSet → Pattern → Int → List HRes × Int}
    {w : Pattern} {groups : Nat → List Tile} {hand : TileSet} {basic mu : Int} {can : Nat}
    (l : List Tile) (m : Int) (h : (hTiles rec w groups hand basic mu can l m).2.2 = true) :
    (hTiles rec w groups hand basic mu can l m).2.1 < basic + mu := by
  induction l generalizing m with
  | nil => simp [hTiles] at h
  | cons t rest ih =>
    simp only [hTiles] at h ⊢
    split at h
    · rename_i hc
      rw [if_pos hc]
      exact hUnits_stop _ _ hc
    · rename_i hc
      rw [if_neg hc]
      exact ih _ h

theorem Found.mono {rs rs' : List HRes} {D : List Group} (h : Found rs D) (hs : ∀ r ∈ rs, r ∈ rs') :
    Found rs' D := by
  obtain ⟨r, hr, x⟩ := h
  exact ⟨r, hs r hr, x⟩

section
variable {ig : Bool} {limits : TileSet} {pr : Int} {w : Pattern} {hand : TileSet}

/-- the unit loop meets the picked group -/
theorem hUnits_complete (hh : HD hand) {rec : TileSet → Pattern → Int → List HRes × Int}
    (hpost : ∀ hand' w' m, HD hand' → (w'.hasWin = true → borrow (Counter.get hand') ≤ m) →
      Post pr m (rec hand' w' m).1 (rec hand' w' m).2)
    {D : List Group} {g : Group} (hg : g ∈ D) (hp : g.Proper) {w' : Pattern}
    (hst : step w g = some w') {can : Int} (hcan : marg (Counter.get hand) g = can)
    (hdef : borrow (Counter.get hand) + (w.needUnits : Int) * can ≤ deficit D (Counter.get hand))
    (hrec : ∀ m, Found (rec (Counter.subtract hand (unitOf g)) w' m).1 (D.erase g) ∨
      (rec (Counter.subtract hand (unitOf g)) w' m).2 < deficit D (Counter.get hand))
    {t : Tile} (ht : RealTile t) (es : List (TileSet × Pattern))
    (hes : ∀ e ∈ es, e ∈ w.nextStates t) (hmem : (unitOf g, w') ∈ es) (m : Int) :
    Found (hUnits rec hand (borrowedTileCount hand) ((w.needUnits : Int) * can) can es m).1 D ∨
    (hUnits rec hand (borrowedTileCount hand) ((w.needUnits : Int) * can) can es m).2.1 <
      deficit D (Counter.get hand) := by
  induction es generalizing m with
  | nil => simp at hmem
  | cons e es ih =>
    have hes' : ∀ e ∈ es, e ∈ w.nextStates t := fun e he => hes e (by simp [he])
    by_cases hck : borrowedTileCount hand + (w.needUnits : Int) * can ≤ m
    · by_cases he : e = (unitOf g, w')
      · subst he
        have hb : borrowedTileCount (Counter.subtract hand (unitOf g)) - borrowedTileCount hand = can := by
          rw [(hh.subUnit hp).borrowed, hh.borrowed, ← hcan]
          unfold marg
          congr 1
          exact sumK_congr (fun k _ => by rw [get_subUnit]; rfl)
        simp only [hUnits, if_pos hck, if_pos hb]
        rcases hrec m with h | h
        · left
          obtain ⟨r, hr, D', hD', hu⟩ := h
          refine ⟨HRes.cons (unitOf g) r, ?_, g :: D', ?_, by simp [HRes.cons, hu]⟩
          · exact List.mem_append.2 (Or.inl (List.mem_map.2 ⟨r, hr, rfl⟩))
          · exact (hD'.cons g).trans (List.perm_cons_erase hg).symm
        · right
          have := (hUnits_post (can := can) hh hpost ht es hes'
            (rec (Counter.subtract hand (unitOf g)) w' m).2).le
          exact Int.lt_of_le_of_lt this h
      · have hmem' : (unitOf g, w') ∈ es := by
          rcases List.mem_cons.1 hmem with h | h
          · exact absurd h.symm he
          · exact h
        simp only [hUnits, if_pos hck]
        rcases ih hes' hmem' (if borrowedTileCount (Counter.subtract hand e.1) - borrowedTileCount hand = can then
            rec (Counter.subtract hand e.1) e.2 m else ([], m)).2 with h | h
        · left
          exact h.mono (fun r hr => List.mem_append.2 (Or.inr hr))
        · right; exact h
    · right
      simp only [hUnits, if_neg hck]
      rw [hh.borrowed] at hck
      omega

/-- the tile loop at the right stage meets the picked group -/
theorem hTiles_complete (hh : HD hand)
    {rec : (Nat → List Tile) → TileSet → Pattern → Int → List HRes × Int}
    {groups : Nat → List Tile} (hstart : ∀ k, Start (groups k))
    (hpost : ∀ gr hand' w' m, (∀ k, RealTiles (gr k)) → HD hand' →
      (w'.hasWin = true → borrow (Counter.get hand') ≤ m) →
      Post pr m (rec gr hand' w' m).1 (rec gr hand' w' m).2)
    {can : Nat} {D : List Group} {g : Group} (hg : g ∈ D) (hp : g.Proper) {w' : Pattern}
    (hst : step w g = some w') (hcan : marg (Counter.get hand) g = can)
    (hpick : ∀ g' ∈ D, marg (Counter.get hand) g' = can → ¬ Kind.lt g'.first g.first)
    (hmin : ∀ g' ∈ D, (can : Int) ≤ marg (Counter.get hand) g')
    {stage0 : Nat} (hinv : HInv ig limits w hand stage0 groups D)
    (hdef : borrow (Counter.get hand) + (w.needUnits : Int) * can ≤ deficit D (Counter.get hand))
    (hrec : ∀ gr m, (∀ k, Start (gr k)) → HInv ig limits w' (Counter.subtract hand (unitOf g)) can gr (D.erase g) →
      Found (rec gr (Counter.subtract hand (unitOf g)) w' m).1 (D.erase g) ∨
      (rec gr (Counter.subtract hand (unitOf g)) w' m).2 < deficit D (Counter.get hand))
    (pre l : List Tile) (hpl : groups can = pre ++ l) (hin : ∃ t ∈ l, t.view = g.first) (m : Int) :
    Found (hTiles rec w groups hand (borrowedTileCount hand) ((w.needUnits : Int) * can) can l m).1 D ∨
    (hTiles rec w groups hand (borrowedTileCount hand) ((w.needUnits : Int) * can) can l m).2.1 <
      deficit D (Counter.get hand) := by
  induction l generalizing pre m with
  | nil => obtain ⟨t, ht, _⟩ := hin; simp at ht
  | cons t rest ih =>
    have hgr : ∀ k, RealTiles (groups k) := fun k => (hstart k).real
    have hs : Start (pre ++ t :: rest) := by rw [← hpl]; exact hstart can
    have hlr : RealTiles (t :: rest) := fun x hx => hs.real x (by simp at hx ⊢; exact Or.inr hx)
    have hsl : Start (t :: rest) := ⟨hlr, (List.pairwise_append.1 hs.sorted).2.1⟩
    have hrl : RealTiles rest := fun x hx => hlr x (by simp [hx])
    have hgr' : ∀ k, RealTiles ((fun i => if i = can then t :: rest else groups i) k) := by
      intro k
      show RealTiles (if k = can then t :: rest else groups k)
      split
      · exact hlr
      · exact hgr k
    simp only [hTiles]
    by_cases hstop : (hUnits (rec fun i => if i = can then t :: rest else groups i) hand
        (borrowedTileCount hand) (↑w.needUnits * ↑can) (↑can) (w.nextStates t) m).2.2 = true
    · rw [if_pos hstop]
      right
      have := hUnits_stop _ _ hstop
      rw [hh.borrowed] at this ⊢
      omega
    · rw [if_neg hstop]
      by_cases htv : t.view = g.first
      · have hinv' : HInv ig limits w' (Counter.subtract hand (unitOf g)) can
            (fun i => if i = can then t :: rest else groups i) (D.erase g) := by
          have hge : ∀ g' ∈ D.erase g, marg (Counter.get hand) g' ≤
              marg (Counter.get (Counter.subtract hand (unitOf g))) g' := by
            intro g' _
            exact marg_mono g' (fun k _ => by
              rw [get_subUnit]; have := Group.count_nonneg g k; omega)
          refine ⟨?_, ?_, ?_, ?_⟩
          · obtain ⟨w'', h1, h2⟩ := legal_take hinv.legal hg
            rw [hst] at h1
            simp only [Option.some.injEq] at h1
            rw [h1]; exact h2
          · intro g' hg'
            exact Int.le_trans (hmin g' (List.mem_of_mem_erase hg')) (hge g' hg')
          · intro g' hg' k hk
            have hD' := List.mem_of_mem_erase hg'
            have h1 := hge g' hg'
            show ∃ t', t' ∈ (if k = can then t :: rest else groups k) ∧ _
            by_cases hkc : k = can
            · rw [if_pos hkc]
              subst hkc
              have h2 := hmin g' hD'
              have h3 : marg (Counter.get hand) g' = k := by omega
              obtain ⟨t', ht', he⟩ := hinv.found g' hD' k (by omega)
              rw [hpl] at ht'
              rcases List.mem_append.1 ht' with ht' | ht'
              · exfalso
                have := (List.pairwise_append.1 hs.sorted).2.2 t' ht' t (by simp)
                rw [he, htv] at this
                exact hpick g' hD' h3 this
              · exact ⟨t', ht', he⟩
            · rw [if_neg hkc]
              exact hinv.found g' hD' k (by omega)
          · intro hig k hk
            rw [get_subUnit]
            have hperm := List.perm_cons_erase hg
            have h1 := need_perm hperm k
            rw [need_cons] at h1
            have h2 := Group.count_nonneg g k
            have h3 := need_nonneg (D.erase g) k
            have := hinv.limit hig k (by
              rcases hk with hk | hk
              · rcases (keys_subUnit _ _ _).1 hk with hk | hk
                · exact Or.inl hk
                · right; omega
              · right; omega)
            omega
        have hst' : ∀ k, Start ((fun i => if i = can then t :: rest else groups i) k) := by
          intro k
          show Start (if k = can then t :: rest else groups k)
          split
          · exact hsl
          · exact hstart k
        rcases hUnits_complete (pr := pr) (rec := rec (fun i => if i = can then t :: rest else groups i)) hh
          (fun hand' w' m => hpost _ hand' w' m hgr') hg hp hst hcan hdef
          (fun m => hrec _ m hst' hinv') (hlr t (by simp)) (w.nextStates t) (fun _ h => h)
          ((mem_nextStates (hlr t (by simp))).2 ⟨g, hp, htv.symm, hst, rfl⟩) m with h | h
        · left; exact h.mono (fun r hr => List.mem_append.2 (Or.inl hr))
        · right
          have := (hTiles_post (pr := pr) (rec := rec) (w := w) (can := can) hh hpost hgr rest hrl
            (hUnits (rec fun i => if i = can then t :: rest else groups i) hand
              (borrowedTileCount hand) (↑w.needUnits * ↑can) (↑can) (w.nextStates t) m).2.1).le
          exact Int.lt_of_le_of_lt this h
      · have hin' : ∃ t ∈ rest, t.view = g.first := by
          obtain ⟨t', ht', he⟩ := hin
          rcases List.mem_cons.1 ht' with rfl | ht'
          · exact absurd he htv
          · exact ⟨t', ht', he⟩
        rcases ih (pre ++ [t]) (by simp [hpl]) hin' _ with h | h
        · left; exact h.mono (fun r hr => List.mem_append.2 (Or.inr hr))
        · right; exact h

theorem hStages_complete (hh : HD hand)
    {rec : Nat → (Nat → List Tile) → TileSet → Pattern → Int → List HRes × Int}
    {groups : Nat → List Tile} (hstart : ∀ k, Start (groups k))
    (hpost : ∀ st gr hand' w' m, (∀ k, RealTiles (gr k)) → HD hand' →
      (w'.hasWin = true → borrow (Counter.get hand') ≤ m) →
      Post pr m (rec st gr hand' w' m).1 (rec st gr hand' w' m).2)
    {c : Nat} {D : List Group} {g : Group} (hg : g ∈ D) (hp : g.Proper) {w' : Pattern}
    (hst : step w g = some w') (hcan : marg (Counter.get hand) g = c)
    (hpick : ∀ g' ∈ D, marg (Counter.get hand) g' = c → ¬ Kind.lt g'.first g.first)
    (hmin : ∀ g' ∈ D, (c : Int) ≤ marg (Counter.get hand) g')
    {stage0 : Nat} (hinv : HInv ig limits w hand stage0 groups D)
    (hrec : ∀ gr m, (∀ k, Start (gr k)) → HInv ig limits w' (Counter.subtract hand (unitOf g)) c gr (D.erase g) →
      Found (rec c gr (Counter.subtract hand (unitOf g)) w' m).1 (D.erase g) ∨
      (rec c gr (Counter.subtract hand (unitOf g)) w' m).2 < deficit D (Counter.get hand))
    (cans : List Nat) (hcs : cans.Pairwise (· < ·)) (hc : c ∈ cans) (m : Int) :
    Found (hStages rec w groups hand (borrowedTileCount hand) cans m).1 D ∨
    (hStages rec w groups hand (borrowedTileCount hand) cans m).2 < deficit D (Counter.get hand) := by
  have hlen : (D.length : Int) = w.needUnits := by rw [hinv.legal.needUnits]
  have hdef : ∀ can : Nat, can ≤ c →
      borrow (Counter.get hand) + (w.needUnits : Int) * can ≤ deficit D (Counter.get hand) := by
    intro can hle
    have := deficit_ge_of_marg (c := (can : Int)) D (Counter.get hand)
      (fun g' hg' => by have := hmin g' hg'; omega)
    rw [hlen] at this
    exact this
  have hgr : ∀ k, RealTiles (groups k) := fun k => (hstart k).real
  induction cans generalizing m with
  | nil => simp at hc
  | cons can rest ih =>
    rw [List.pairwise_cons] at hcs
    simp only [hStages]
    have hle : can ≤ c := by
      rcases List.mem_cons.1 hc with h | h
      · omega
      · have := hcs.1 c h; omega
    by_cases hstop : (hTiles (rec can) w groups hand (borrowedTileCount hand) (↑w.needUnits * ↑can) can
        (groups can) m).2.2 = true
    · rw [if_pos hstop]
      right
      have h1 := hTiles_stop _ _ hstop
      have h2 := hdef can hle
      rw [hh.borrowed] at h1 ⊢
      show (hTiles (rec can) w groups hand (borrow (Counter.get hand)) (↑w.needUnits * ↑can) can
        (groups can) m).2.1 < _
      omega
    · rw [if_neg hstop]
      by_cases hcc : can = c
      · subst hcc
        rcases hTiles_complete (pr := pr) (rec := rec can) hh hstart (hpost can) hg hp hst hcan hpick hmin hinv
          (hdef can hle) hrec [] (groups can) rfl (hinv.found g hg can (by omega)) m with h | h
        · left; exact h.mono (fun r hr => List.mem_append.2 (Or.inl hr))
        · right
          have := (hStages_post (pr := pr) (rec := rec) (w := w) hh hpost hgr rest
            (hTiles (rec can) w groups hand (borrowedTileCount hand) (↑w.needUnits * ↑can) can
              (groups can) m).2.1).le
          exact Int.lt_of_le_of_lt this h
      · have hc' : c ∈ rest := by
          rcases List.mem_cons.1 hc with h | h
          · exact absurd h.symm hcc
          · exact h
        rcases ih hcs.2 hc' _ with h | h
        · left; exact h.mono (fun r hr => List.mem_append.2 (Or.inr hr))
        · right; exact h

end

theorem size_le_maxUnitLength {w : Pattern} {D : List Group} (h : Legal w D) {g : Group} (hg : g ∈ D) :
    g.size ≤ w.maxUnitLength := by
  cases w with
  | normal p m =>
    simp only [Pattern.maxUnitLength]
    cases hb : g.isPair with
    | true => cases g <;> simp_all [Group.isPair, Group.size] <;> split <;> omega
    | false =>
      have : 0 < (D.filter (fun g => !g.isPair)).length :=
        List.length_pos_of_mem (List.mem_filter.2 ⟨hg, by simp [hb]⟩)
      rw [h.2.2] at this
      rw [if_pos this]
      cases g <;> simp [Group.size]
  | unique p used =>
    obtain ⟨k, rfl, _⟩ := h.1 g hg
    simp [Group.size, Pattern.maxUnitLength]

theorem mem_rangeFrom {a b x : Nat} : x ∈ rangeFrom a b ↔ a ≤ x ∧ x < b := by
  unfold rangeFrom
  simp only [List.mem_map, List.mem_range]
  constructor
  · rintro ⟨i, hi, rfl⟩; omega
  · rintro ⟨h1, h2⟩; exact ⟨x - a, by omega, by omega⟩

theorem rangeFrom_sorted (a b : Nat) : (rangeFrom a b).Pairwise (· < ·) := by
  unfold rangeFrom
  rw [List.pairwise_map]
  exact List.pairwise_lt_range.imp (fun h => by omega)

theorem hSel_complete {ig : Bool} {limits : TileSet} {pr : Int} (hpr : 0 ≤ pr) (fuel : Nat) :
    ∀ stage groups hand w m D, w.needUnits < fuel → (∀ k, Start (groups k)) → HD hand →
      HInv ig limits w hand stage groups D →
      Found (hSel ig limits pr fuel stage groups hand w m).1 D ∨
      (hSel ig limits pr fuel stage groups hand w m).2 < deficit D (Counter.get hand) := by
  induction fuel with
  | zero => intro stage groups hand w m D h; omega
  | succ fuel ih =>
    intro stage groups hand w m D hfuel hstart hh hinv
    simp only [hSel]
    have hlim : ¬ (ig && !(withinLimits limits hand)) = true := by
      simp only [Bool.and_eq_true, Bool.not_eq_true', not_and, Bool.not_eq_false]
      intro hig
      rw [withinLimits_iff hh.wf]
      intro k hk
      have := hinv.limit hig k (Or.inl hk)
      have := need_nonneg D k
      omega
    rw [if_neg hlim]
    by_cases hne : D = []
    · subst hne
      rw [if_pos (legal_nil.1 hinv.legal)]
      left
      exact ⟨_, List.mem_singleton.2 rfl, [], List.Perm.refl _, rfl⟩
    · have hnw : ¬ w.hasWin = true := by
        rw [hasWin_iff]
        have h1 := hinv.legal.needUnits
        have h2 := List.length_pos_iff.2 hne
        omega
      rw [if_neg hnw]
      obtain ⟨g, hg, hmin, hpick⟩ := exists_pick (marg (Counter.get hand)) hne
      have hp := hinv.legal.proper g hg
      have h0 := marg_nonneg (Counter.get hand) g
      obtain ⟨w', hst, hl⟩ := legal_take hinv.legal hg
      obtain ⟨c, hc⟩ : ∃ c : Nat, marg (Counter.get hand) g = c :=
        ⟨(marg (Counter.get hand) g).toNat, by omega⟩
      refine hStages_complete (ig := ig) (limits := limits) (pr := pr) (stage0 := stage) hh hstart
        (fun st gr hand' w' m => hSel_post hpr fuel st gr hand' w' m) hg hp hst hc
        (fun g' hg' he => hpick g' hg' (by rw [he, hc])) (fun g' hg' => by rw [← hc]; exact hmin g' hg')
        hinv ?_ _ (rangeFrom_sorted _ _) ?_ m
      · intro gr m hgr hinv'
        have := step_needUnits hst
        have hd : deficit (D.erase g) (Counter.get (Counter.subtract hand (unitOf g))) =
            deficit D (Counter.get hand) := by
          rw [deficit_perm (List.perm_cons_erase hg), deficit_cons]
          exact deficit_congr (fun k _ => get_subUnit hand g k)
        rw [← hd]
        exact ih c gr _ w' m _ (by omega) hgr (hh.subUnit hp) hinv'
      · rw [mem_rangeFrom]
        have h1 := hinv.stage g hg
        have h2 := marg_le_size (Counter.get hand) hp
        have h3 := size_le_maxUnitLength hinv.legal hg
        omega

end Verif.Proofs
