import Verif.Proofs.SetStorePm
import Verif.Proofs.Notation

/-! The heuristic waiting analysis with objects. -/
namespace Verif.Proofs
open Verif.Py Verif.Model Verif.Spec

variable {unitAt : TileSet → Nat}

/-- these results are yielded, and every object of `h` is as it was at each yield -/
def YieldsOK (unitAt : TileSet → Nat) (h : Store) (vals : List HRes) (ys : List (HYield × Store)) : Prop :=
  (∀ y ∈ ys, h <+: y.2) ∧
  ys.map (fun y => (y.1.count, y.1.units, y.2.getSet y.1.borrowed)) = vals.map (fun v => (v.count, v.units.map unitAt, v.borrowed))

theorem YieldsOK.nil {h : Store} : YieldsOK unitAt h [] [] := ⟨by simp, rfl⟩

theorem YieldsOK.mono {h h' : Store} {vals : List HRes} {ys : List (HYield × Store)} (hy : YieldsOK unitAt h' vals ys) (hp : h <+: h') :
    YieldsOK unitAt h vals ys := ⟨fun y hy' => hp.trans (hy.1 y hy'), hy.2⟩

theorem YieldsOK.append {h : Store} {v1 v2 : List HRes} {y1 y2 : List (HYield × Store)} (a : YieldsOK unitAt h v1 y1) (b : YieldsOK unitAt h v2 y2) :
    YieldsOK unitAt h (v1 ++ v2) (y1 ++ y2) := by
  refine ⟨fun y hy => ?_, by simp only [List.map_append]; rw [a.2, b.2]⟩
  rcases List.mem_append.1 hy with hy | hy
  · exact a.1 y hy
  · exact b.1 y hy

theorem YieldsOK.cons {h : Store} {v : List HRes} {ys : List (HYield × Store)} (a : YieldsOK unitAt h v ys) (u : TileSet) :
    YieldsOK unitAt h (v.map (HRes.cons u)) (ys.map (fun y => (⟨y.1.count, unitAt u :: y.1.units, y.1.borrowed⟩, y.2))) := by
  refine ⟨fun y hy => ?_, ?_⟩
  · obtain ⟨y', hy', rfl⟩ := List.mem_map.1 hy
    exact a.1 y' hy'
  · have := congrArg (List.map (fun l : Int × List Nat × TileSet => (l.1, unitAt u :: l.2.1, l.2.2))) a.2
    simpa only [List.map_map, Function.comp_def, HRes.cons, List.map_cons] using this

/-- what a search is expected to do from `h` on -/
def SearchOK (unitAt : TileSet → Nat) (h : Store) (p : List HRes × Int) (r : List (HYield × Store) × Int × Store) : Prop :=
  YieldsOK unitAt h p.1 r.1 ∧ r.2.1 = p.2 ∧ h <+: r.2.2

/-- the list of lists stands for these lists -/
def GroupOK (h : Store) (group n : Nat) (gs : Nat → List Tile) : Prop :=
  group < h.length ∧ (h.getLists group).length = n ∧
  ∀ i < n, ∃ r, (h.getLists group)[i]? = some r ∧ r < h.length ∧ h.getTiles r = gs i ∧ RealTiles (gs i)

theorem GroupOK.mono {h h' : Store} {group n : Nat} {gs : Nat → List Tile} (hg : GroupOK h group n gs) (hp : h <+: h') : GroupOK h' group n gs := by
  obtain ⟨a, b, c⟩ := hg
  have e : h'.getLists group = h.getLists group := getLists_of_prefix hp a
  refine ⟨Nat.lt_of_lt_of_le a hp.length_le, by rw [e]; exact b, fun i hi => ?_⟩
  obtain ⟨r, r1, r2, r3, r4⟩ := c i hi
  exact ⟨r, by rw [e]; exact r1, Nat.lt_of_lt_of_le r2 hp.length_le, by rw [getTiles_of_prefix hp r2]; exact r3, r4⟩

theorem hUnitsRun_ok {pure : TileSet → Pattern → Int → List HRes × Int}
    {rec : Nat → Pattern → Int → Store → List (HYield × Store) × Int × Store} {hand : Nat} {basic mu can : Int} {h0 : Store} (hh : hand < h0.length)
    (es : List (TileSet × Pattern))
    (hrec : ∀ e ∈ es, ∀ (temp : Nat) (max : Int) (h' : Store), h0 <+: h' → temp < h'.length → SearchOK unitAt h' (pure (h'.getSet temp) e.2 max) (rec temp e.2 max h'))
    (hes : Stored unitAt h0 es) (max : Int) {h : Store} (hp : h0 <+: h) :
    YieldsOK unitAt h (hUnits pure (h0.getSet hand) basic mu can es max).1 (hUnitsRun rec hand basic mu can (unitRefs unitAt es) max h).1 ∧
      (hUnitsRun rec hand basic mu can (unitRefs unitAt es) max h).2.1 = (hUnits pure (h0.getSet hand) basic mu can es max).2.1 ∧
      (hUnitsRun rec hand basic mu can (unitRefs unitAt es) max h).2.2.1 = (hUnits pure (h0.getSet hand) basic mu can es max).2.2 ∧
      h <+: (hUnitsRun rec hand basic mu can (unitRefs unitAt es) max h).2.2.2 := by
  induction es generalizing max h with
  | nil => exact ⟨YieldsOK.nil, rfl, rfl, List.prefix_refl _⟩
  | cons e es ih =>
    obtain ⟨u, w'⟩ := e
    obtain ⟨hu, hu'⟩ := hes (u, w') (by simp)
    simp only [unitRefs, List.map_cons, hUnitsRun, hUnits]
    by_cases hc : basic + mu ≤ max
    · rw [if_pos hc, if_pos hc]
      have g0 : h.getSet hand = h0.getSet hand := getSet_of_prefix hp hh
      have gu : Store.getSet (h ++ [Obj.set (h0.getSet hand)]) (unitAt u) = u := by
        rw [getSet_of_prefix (hp.trans (prefix_new _ _)) hu]; exact hu'
      simp only [Store.copySet, g0, getSet_new, gu, putSet_new]
      obtain ⟨h2, e2⟩ : ∃ h2 : Store, h2 = h ++ [.set (Counter.subtract (h0.getSet hand) u)] := ⟨_, rfl⟩
      have p2 : h <+: h2 := by rw [e2]; exact prefix_new _ _
      have g2 : h2.getSet h.length = Counter.subtract (h0.getSet hand) u := by rw [e2, getSet_new]
      have r1 : SearchOK unitAt h (if borrowedTileCount (Counter.subtract (h0.getSet hand) u) - basic = can then
            pure (Counter.subtract (h0.getSet hand) u) w' max else ([], max))
          (if borrowedTileCount (Counter.subtract (h0.getSet hand) u) - basic = can then rec h.length w' max h2 else ([], max, h2)) := by
        split
        · have := hrec (u, w') (by simp) h.length max h2 (hp.trans p2) (by rw [e2]; simp)
          rw [g2] at this
          exact ⟨this.1.mono p2, this.2.1, p2.trans this.2.2⟩
        · exact ⟨YieldsOK.nil, rfl, p2⟩
      simp only [← e2]
      generalize (if borrowedTileCount (Counter.subtract (h0.getSet hand) u) - basic = can then rec h.length w' max h2 else ([], max, h2)) = r at r1
      obtain ⟨ys, m1, h3⟩ := r
      obtain ⟨a1, a2, a3⟩ := r1
      simp only at a2
      subst a2
      simp only at a3
      obtain ⟨b1, b2, b3, b4⟩ := ih (fun e he => hrec e (by simp [he])) (fun e he => hes e (by simp [he]))
        ((if borrowedTileCount (Counter.subtract (h0.getSet hand) u) - basic = can then
            pure (Counter.subtract (h0.getSet hand) u) w' max else ([], max)).2) (hp.trans a3)
      simp only [unitRefs] at b1 b2 b3 b4
      exact ⟨(a1.cons u).append (b1.mono a3), b2, b3, a3.trans b4⟩
    · rw [if_neg hc, if_neg hc]
      exact ⟨YieldsOK.nil, rfl, rfl, List.prefix_refl _⟩

theorem hTilesRun_ok {pure : (Nat → List Tile) → TileSet → Pattern → Int → List HRes × Int}
    {rec : Nat → Nat → Pattern → Int → Store → List (HYield × Store) × Int × Store} {w : Pattern} {hand group n can : Nat} {gs : Nat → List Tile}
    {basic mu : Int} {h0 : Store} (hs : SharedIn unitAt h0) (hh : hand < h0.length) (hg : GroupOK h0 group n gs) (hcan : can < n)
    (hrec : ∀ t, ∀ e ∈ w.nextStates t, ∀ (gs' : Nat → List Tile) (temp hand' : Nat) (max : Int) (h' : Store), h0 <+: h' → hand' < h'.length → GroupOK h' temp n gs' →
      SearchOK unitAt h' (pure gs' (h'.getSet hand') e.2 max) (rec temp hand' e.2 max h'))
    (l : List Tile) (hl : RealTiles l) (max : Int) {h : Store} (hp : h0 <+: h) (hlen : h0.length + 1 < h.length)
    (g1 : h.getTiles h0.length = l) (g2 : h.getLists (h0.length + 1) = (h0.getLists group).set can h0.length) :
    YieldsOK unitAt h0 (hTiles pure w gs (h0.getSet hand) basic mu can l max).1
        (hTilesRun unitAt (rec (h0.length + 1)) w hand h0.length basic mu can l max h).1 ∧
      (hTilesRun unitAt (rec (h0.length + 1)) w hand h0.length basic mu can l max h).2.1 = (hTiles pure w gs (h0.getSet hand) basic mu can l max).2.1 ∧
      (hTilesRun unitAt (rec (h0.length + 1)) w hand h0.length basic mu can l max h).2.2.1 = (hTiles pure w gs (h0.getSet hand) basic mu can l max).2.2 ∧
      h0 <+: (hTilesRun unitAt (rec (h0.length + 1)) w hand h0.length basic mu can l max h).2.2.2 := by
  induction l generalizing max h with
  | nil => exact ⟨YieldsOK.nil, rfl, rfl, hp⟩
  | cons t rest ih =>
    have hgrp : GroupOK h (h0.length + 1) n (fun i => if i = can then t :: rest else gs i) := by
      obtain ⟨a, b, c⟩ := hg
      refine ⟨hlen, by rw [g2]; simpa using b, fun i hi => ?_⟩
      rw [g2]
      by_cases hic : i = can
      · subst hic
        exact ⟨h0.length, by simp [b, hi], by omega, by simpa using g1, by simpa using hl⟩
      · obtain ⟨r, r1, r2, r3, r4⟩ := c i hi
        refine ⟨r, by rw [List.getElem?_set_ne (fun h => hic h.symm)]; exact r1, Nat.lt_of_lt_of_le r2 hp.length_le, ?_, ?_⟩
        · rw [getTiles_of_prefix hp r2, r3]; simp [hic]
        · simpa [hic] using r4
    obtain ⟨a1, a2, a3, a4⟩ := hUnitsRun_ok (unitAt := unitAt) (basic := basic) (mu := mu) (can := can) (h0 := h)
      (pure := pure (fun i => if i = can then t :: rest else gs i)) (rec := rec (h0.length + 1)) (Nat.lt_of_lt_of_le hh hp.length_le)
      (w.nextStates t)
      (fun e he temp max h' hp' ht => hrec t e he _ _ _ _ _ (hp.trans hp') ht (hgrp.mono hp'))
      ((hs.mono hp).stored (hl t (by simp))) max (List.prefix_refl h)
    rw [getSet_of_prefix hp hh] at a1 a2 a3
    have hn : nextRefs unitAt w t = unitRefs unitAt (w.nextStates t) := rfl
    simp only [hTilesRun, hTiles, hn]
    generalize hUnitsRun (rec (h0.length + 1)) hand basic mu can (unitRefs unitAt (w.nextStates t)) max h = r at a1 a2 a3 a4
    obtain ⟨ys, m1, f, h1⟩ := r
    simp only at a1 a2 a3 a4
    subst a2 a3
    simp only
    by_cases hf : (hUnits (pure fun i => if i = can then t :: rest else gs i) (h0.getSet hand) basic mu can (w.nextStates t) max).2.2 = true
    · rw [if_pos hf, if_pos hf]
      exact ⟨a1.mono hp, rfl, rfl, hp.trans a4⟩
    · rw [if_neg hf, if_neg hf]
      have t1 : (h1.getTiles h0.length).eraseP (fun x => x.eq t) = rest := by
        rw [getTiles_of_prefix a4 (by omega), g1]; simp [Tile.eq]
      rw [t1]
      have ll := a4.length_le
      obtain ⟨b1, b2, b3, b4⟩ := ih (fun x hx => hl x (by simp [hx]))
        ((hUnits (pure fun i => if i = can then t :: rest else gs i) (h0.getSet hand) basic mu can (w.nextStates t) max).2.1)
        (h := h1.putTiles h0.length rest) (prefix_set (hp.trans a4) (Nat.le_refl _) _) (by rw [length_putTiles]; omega)
        (getTiles_putTiles (by omega) _)
        (by unfold Store.putTiles; rw [getLists_put_ne (by omega), getLists_of_prefix a4 hlen]; exact g2)
      exact ⟨(a1.mono hp).append b1, b2, b3, b4⟩

theorem hStagesRun_ok {pure : Nat → (Nat → List Tile) → TileSet → Pattern → Int → List HRes × Int}
    {rec : Nat → Nat → Nat → Pattern → Int → Store → List (HYield × Store) × Int × Store} {w : Pattern} {hand group n : Nat} {gs : Nat → List Tile}
    {basic : Int} (cans : List Nat) (hcans : ∀ c ∈ cans, c < n) (max : Int) {h : Store} (hs : SharedIn unitAt h) (hh : hand < h.length)
    (hg : GroupOK h group n gs)
    (hrec : ∀ stage t, ∀ e ∈ w.nextStates t, ∀ (gs' : Nat → List Tile) (temp hand' : Nat) (max : Int) (h' : Store), h <+: h' → hand' < h'.length → GroupOK h' temp n gs' →
      SearchOK unitAt h' (pure stage gs' (h'.getSet hand') e.2 max) (rec stage temp hand' e.2 max h')) :
    SearchOK unitAt h (hStages pure w gs (h.getSet hand) basic cans max) (hStagesRun unitAt rec w group hand basic cans max h) := by
  induction cans generalizing max h with
  | nil => exact ⟨YieldsOK.nil, rfl, List.prefix_refl _⟩
  | cons can cans ih =>
    have hc := hcans can (by simp)
    obtain ⟨r0, q1, q2, q3, q4⟩ := hg.2.2 can hc
    have e0 : (h.getLists group).getD can 0 = r0 := by rw [List.getD_eq_getElem?_getD, q1]; rfl
    simp only [hStagesRun, hStages, Store.copyTiles, e0, q3]
    obtain ⟨h2, e2⟩ : ∃ h2 : Store, h2 = h ++ [.tiles (gs can)] ++ [.lists ((h.getLists group).set can h.length)] := ⟨_, rfl⟩
    have el : Store.getLists (h ++ [.tiles (gs can)]) group = h.getLists group := getLists_of_prefix (prefix_new _ _) hg.1
    have en : (h ++ [Obj.tiles (gs can)] : Store).length = h.length + 1 := by simp
    have p2 : h <+: h2 := by rw [e2]; exact (prefix_new _ _).trans (prefix_new _ _)
    have t2 : h2.getTiles h.length = gs can := by rw [e2, getTiles_of_prefix (prefix_new _ _) (by simp), getTiles_new]
    have l2 : h2.getLists (h.length + 1) = (h.getLists group).set can h.length := by rw [e2, ← en, getLists_new]
    simp only [el, en, ← e2, t2]
    obtain ⟨a1, a2, a3, a4⟩ := hTilesRun_ok (unitAt := unitAt) (w := w) (basic := basic) (mu := (w.needUnits : Int) * can) (pure := pure can) (rec := rec can)
      hs hh hg hc (fun t e he gs' temp hand' max h' => hrec can t e he gs' temp hand' max h') (gs can) q4 max p2 (by rw [e2]; simp) t2 l2
    generalize hTilesRun unitAt (rec can (h.length + 1)) w hand h.length basic ((w.needUnits : Int) * can) can (gs can) max h2 = r at a1 a2 a3 a4
    obtain ⟨ys, m1, f, h3⟩ := r
    simp only at a1 a2 a3 a4
    subst a2 a3
    simp only
    by_cases hf : (hTiles (pure can) w gs (h.getSet hand) basic ((w.needUnits : Int) * can) can (gs can) max).2.2 = true
    · rw [if_pos hf, if_pos hf]
      exact ⟨a1, rfl, a4⟩
    · rw [if_neg hf, if_neg hf]
      obtain ⟨b1, b2, b3⟩ := ih (fun c h => hcans c (by simp [h]))
        ((hTiles (pure can) w gs (h.getSet hand) basic ((w.needUnits : Int) * can) can (gs can) max).2.1) (hs.mono a4)
        (Nat.lt_of_lt_of_le hh a4.length_le) (hg.mono a4)
        (fun stage t e he gs' temp hand' max h' hp' => hrec stage t e he gs' temp hand' max h' (a4.trans hp'))
      rw [getSet_of_prefix a4 hh] at b1 b2
      exact ⟨a1.append (b1.mono a4), b2, a4.trans b3⟩

theorem maxUnitLength_next {w : Pattern} {t : Tile} {e : TileSet × Pattern} (he : e ∈ w.nextStates t) : e.2.maxUnitLength ≤ w.maxUnitLength := by
  obtain ⟨u, w'⟩ := e
  cases w with
  | normal p m =>
    have key : ∀ p' m', m' ≤ m → (Pattern.normal p' m').maxUnitLength ≤ (Pattern.normal p m).maxUnitLength := by
      intro p' m' hm
      simp only [Pattern.maxUnitLength]
      split <;> split <;> omega
    simp only [Pattern.nextStates, List.mem_append] at he
    rcases he with he | he
    · split at he
      · simp only [List.mem_singleton, Prod.mk.injEq] at he
        obtain ⟨_, rfl⟩ := he
        exact key _ _ (Nat.le_refl _)
      · simp at he
    · split at he
      · rcases List.mem_append.1 he with he | he
        · split at he
          · split at he
            · simp only [List.mem_singleton, Prod.mk.injEq] at he
              obtain ⟨_, rfl⟩ := he
              exact key _ _ (Nat.sub_le _ _)
            · simp at he
          · simp at he
        · simp only [List.mem_singleton, Prod.mk.injEq] at he
          obtain ⟨_, rfl⟩ := he
          exact key _ _ (Nat.sub_le _ _)
      · simp at he
  | «unique» p used =>
    simp only [Pattern.nextStates] at he
    split at he
    · simp only [List.mem_singleton, Prod.mk.injEq] at he
      obtain ⟨_, rfl⟩ := he
      simp [Pattern.maxUnitLength]
    · simp at he

theorem hSelRun_ok {ig : Bool} {limits : Nat} {lim : TileSet} {pr : Int} {n : Nat} (fuel : Nat) :
    ∀ (stage group hand : Nat) (w : Pattern) (max : Int) (h : Store) (gs : Nat → List Tile), SharedIn unitAt h → hand < h.length →
      limits < h.length → h.getSet limits = lim → GroupOK h group n gs → w.maxUnitLength < n →
      SearchOK unitAt h (hSel ig lim pr fuel stage gs (h.getSet hand) w max) (hSelRun unitAt ig limits pr fuel stage group hand w max h) := by
  induction fuel with
  | zero => intro stage group hand w max h gs _ _ _ _ _ _; exact ⟨YieldsOK.nil, rfl, List.prefix_refl _⟩
  | succ fuel ih =>
    intro stage group hand w max h gs hs hh hl gl hg hw
    simp only [hSelRun, hSel, gl, Store.copySet]
    by_cases c1 : (ig && !withinLimits lim (h.getSet hand)) = true
    · rw [if_pos c1, if_pos c1]; exact ⟨YieldsOK.nil, rfl, List.prefix_refl _⟩
    rw [if_neg c1, if_neg c1]
    by_cases c2 : w.hasWin = true
    · rw [if_pos c2, if_pos c2]
      simp only [getSet_new]
      exact ⟨⟨by simp, by simp [getSet_new]⟩, rfl, prefix_new _ _⟩
    rw [if_neg c2, if_neg c2]
    have p1 : h <+: h ++ [Obj.set (h.getSet hand)] := prefix_new _ _
    have r := hStagesRun_ok (unitAt := unitAt) (pure := hSel ig lim pr fuel) (rec := hSelRun unitAt ig limits pr fuel) (w := w)
      (hand := h.length) (basic := borrowedTileCount (h.getSet hand)) (rangeFrom stage (w.maxUnitLength + 1))
      (by
        intro c hc
        unfold rangeFrom at hc
        obtain ⟨i, hi, rfl⟩ := List.mem_map.1 hc
        have := List.mem_range.1 hi
        omega) max (hs.mono p1) (by simp) (hg.mono p1)
      (fun stage t e he gs' temp hand' max h' hp' hh' hg' => ih stage temp hand' e.2 max h' gs' (hs.mono (p1.trans hp')) hh'
        (Nat.lt_of_lt_of_le hl (p1.trans hp').length_le) (by rw [getSet_of_prefix (p1.trans hp') hl]; exact gl) hg'
        (Nat.lt_of_le_of_lt (maxUnitLength_next he) hw))
    rw [getSet_new] at r ⊢
    exact ⟨r.1.mono p1, r.2.1, p1.trans r.2.2⟩

/-! ### The calls -/

/-- the objects `init_search_by_hand` makes, for an object list of length `n` -/
def searchObjs (w : Pattern) (c : TileSet) (n : Nat) : Store :=
  ((List.range (w.maxUnitLength + 1)).map (initBorrows w c)).map Obj.tiles ++
    [.lists ((List.range (w.maxUnitLength + 1)).map (fun i => n + i))]

theorem initSearchRun_eq (w : Pattern) (hand : Nat) (h : Store) :
    initSearchRun w hand h = (h.length + (w.maxUnitLength + 1), h ++ searchObjs w (h.getSet hand) h.length) := by
  simp [initSearchRun, searchObjs]

theorem group_searchObjs (w : Pattern) (c : TileSet) (g : Store) :
    GroupOK (g ++ searchObjs w c g.length) (g.length + (w.maxUnitLength + 1)) (w.maxUnitLength + 1) (initBorrows w c) := by
  obtain ⟨g1, e1⟩ : ∃ g1 : Store, g1 = g ++ ((List.range (w.maxUnitLength + 1)).map (initBorrows w c)).map Obj.tiles := ⟨_, rfl⟩
  have l1 : g1.length = g.length + (w.maxUnitLength + 1) := by rw [e1]; simp
  have e2 : g ++ searchObjs w c g.length = g1 ++ [.lists ((List.range (w.maxUnitLength + 1)).map (fun i => g.length + i))] := by
    rw [e1, searchObjs, List.append_assoc]
  rw [e2, ← l1]
  refine ⟨by simp, by rw [getLists_new]; simp, fun i hi => ?_⟩
  rw [getLists_new]
  refine ⟨g.length + i, by simp [hi], by simp; omega, ?_, (start_initBorrows w _ i).real⟩
  rw [getTiles_of_prefix (prefix_new _ _) (by omega), e1]
  unfold Store.getTiles
  rw [List.getElem?_append_right (by omega)]
  simp [hi]

theorem reSort_append' {h : Store} {hand : Nat} (hh : hand < h.length) (l : Store) : Store.reSort (h ++ l) hand = h.reSort hand ++ l := by
  unfold Store.reSort Store.putSet
  rw [getSet_of_prefix (List.prefix_append _ _) hh, List.set_append_left _ _ hh]

/-- the search after `init_search_by_hand` and `borrowed_limit` -/
theorem searchRun_ok (w : Pattern) (ig : Bool) (pr max : Int) {hand : Nat} {h : Store} (hs : Shared unitAt hand h) (hh : hand < h.length) :
    SearchOK unitAt (h.reSort hand)
      (hSel ig (borrowedLimit (h.getSet hand)) pr (w.needUnits + 1) 0 (initBorrows w (h.getSet hand)) (reSort (h.getSet hand)) w max)
      (hSelRun unitAt ig (borrowedLimitRun hand (initSearchRun w hand h).2).1 pr (w.needUnits + 1) 0 (initSearchRun w hand h).1 hand w max
        (borrowedLimitRun hand (initSearchRun w hand h).2).2) := by
  have p1 : h <+: h ++ searchObjs w (h.getSet hand) h.length := List.prefix_append _ _
  rw [initSearchRun_eq, borrowedLimitRun_eq (Nat.lt_of_lt_of_le hh p1.length_le), reSort_append' hh, getSet_of_prefix p1 hh]
  have hl : (h.reSort hand).length = h.length := length_reSort _ _
  have g := group_searchObjs w (h.getSet hand) (h.reSort hand)
  rw [hl] at g
  obtain ⟨g1, e1⟩ : ∃ g1 : Store, g1 = h.reSort hand ++ searchObjs w (h.getSet hand) h.length := ⟨_, rfl⟩
  have l1 : (h ++ searchObjs w (h.getSet hand) h.length).length = g1.length := by rw [e1]; simp [hl]
  have p2 : h.reSort hand <+: g1 ++ [Obj.set (borrowedLimit (h.getSet hand))] := by
    rw [e1]; exact (List.prefix_append _ _).trans (prefix_new _ _)
  simp only [← e1, l1] at g ⊢
  have r := hSelRun_ok (unitAt := unitAt) (ig := ig) (limits := g1.length) (lim := borrowedLimit (h.getSet hand)) (pr := pr) (w.needUnits + 1) 0
    (h.length + (w.maxUnitLength + 1)) hand w max (g1 ++ [Obj.set (borrowedLimit (h.getSet hand))]) (initBorrows w (h.getSet hand))
    ((hs.put _).in.mono p2) (by have := p2.length_le; omega) (by simp) (getSet_new _ _) (g.mono (prefix_new _ _)) (Nat.lt_succ_self _)
  rw [getSet_of_prefix p2 (by omega), getSet_reSort hh] at r
  exact ⟨r.1.mono p2, r.2.1, p2.trans r.2.2⟩

theorem heurBeforeRun_ok (m : Int) (w : Pattern) (ig : Bool) {hand : Nat} {h : Store} (hs : Shared unitAt hand h) (hh : hand < h.length) :
    (heurBeforeRun unitAt w ig hand h).1 = (heurBefore m w ig (h.getSet hand)).1 ∧
      (heurBeforeRun unitAt w ig hand h).2.1 = (heurBefore m w ig (h.getSet hand)).2 ∧
      h.reSort hand <+: (heurBeforeRun unitAt w ig hand h).2.2 := by
  obtain ⟨a, b, c⟩ := searchRun_ok w ig 1 (Counter.total (h.getSet hand)) hs hh
  simp only [heurBeforeRun, heurBefore]
  refine ⟨?_, b, c⟩
  have := congrArg (List.map (fun x : Int × List Nat × TileSet => x.1)) a.2
  simp only [List.map_map, Function.comp_def] at this
  rw [this]

theorem heurCombosRun_ok (w : Pattern) (ig : Bool) (sw : Int) {hand : Nat} {h : Store} (hs : Shared unitAt hand h) (hh : hand < h.length) :
    SearchOK unitAt (h.reSort hand) (heurCombos w ig (h.getSet hand) sw) (heurCombosRun unitAt w ig hand sw h) := by
  have := searchRun_ok w ig 0 (sw + 1) hs hh
  simp only [heurCombosRun, heurCombos]
  exact this

theorem useful_eq {h : Store} {vals : List HRes} {ys : List (HYield × Store)} (r : YieldsOK unitAt h vals ys) :
    ys.flatMap (fun y => (y.2.getSet y.1.borrowed).map (fun e => e.1)) = vals.flatMap (fun r => r.borrowed.map (fun e => e.1)) := by
  have := congrArg (List.flatMap (fun x : Int × List Nat × TileSet => x.2.2.map (fun e => e.1))) r.2
  simpa only [List.flatMap_map] using this

/-- the second half of `waiting_and_useful_tiles` and of `batch_waiting_and_useful_tiles` runs on the hand sorted by the first half -/
theorem second_half {w : Pattern} {ig : Bool} {sw : Int} {hand : Nat} {h h1 : Store} {s : TileSet} (hs : Shared unitAt hand h)
    (hh : h[hand]? = some (.set s)) (hp : h.reSort hand <+: h1) :
    SearchOK unitAt (h1.reSort hand) (heurCombos w ig (reSort s) sw) (heurCombosRun unitAt w ig hand sw h1) ∧
      ∀ h2, h1.reSort hand <+: h2 → OnlySorted hand h h2 := by
  have hl : hand < h.length := by
    by_contra hn
    rw [List.getElem?_eq_none (by omega)] at hh
    cases hh
  have e : h.getSet hand = s := by unfold Store.getSet; rw [hh]
  have o1 := OnlySorted.of_prefix hh hp
  have g1 : h1.getSet hand = reSort s := by rw [getSet_sorted hl hp, e]
  have r := heurCombosRun_ok w ig sw ((hs.put _).mono hp) (lt_sorted hl hp)
  rw [g1] at r
  refine ⟨r, fun h2 h12 => ?_⟩
  obtain ⟨s', hs'⟩ : ∃ s', h1[hand]? = some (.set s') := by obtain ⟨_, _, s', _, hs', _⟩ := o1; exact ⟨s', hs'⟩
  exact o1.trans (OnlySorted.of_prefix hs' h12) (by have := hp.length_le; rw [length_reSort] at this; exact this)

theorem heurWaitingUsefulRun_ok (m : Int) (w : Pattern) (ig : Bool) {hand : Nat} {h : Store} {s : TileSet} (hs : Shared unitAt hand h)
    (hh : h[hand]? = some (.set s)) :
    (heurWaitingUsefulRun unitAt w ig hand h).1 = heurWaitingUseful m w ig s ∧ OnlySorted hand h (heurWaitingUsefulRun unitAt w ig hand h).2 := by
  have hl : hand < h.length := by
    by_contra hn
    rw [List.getElem?_eq_none (by omega)] at hh
    cases hh
  have e : h.getSet hand = s := by unfold Store.getSet; rw [hh]
  obtain ⟨a, _, c⟩ := heurBeforeRun_ok m w true hs hl
  rw [e] at a
  simp only [heurWaitingUsefulRun, heurWaitingUseful, ← a]
  generalize heurBeforeRun unitAt w true hand h = x at c
  obtain ⟨o, m', h1⟩ := x
  simp only at c
  cases o with
  | error e => exact ⟨rfl, OnlySorted.of_prefix hh c⟩
  | ok sw =>
    obtain ⟨r, k⟩ := second_half (w := w) (ig := ig) (sw := sw) hs hh c
    refine ⟨?_, k _ r.2.2⟩
    simp only [Except.map]
    rw [useful_eq r.1]

theorem addAllRun_ok (us : List TileSet) {acc : Nat} {h : Store} (ha : acc < h.length)
    (hu : ∀ u ∈ us, unitAt u < h.length ∧ h.getSet (unitAt u) = u) :
    h <+: (addAllRun (us.map unitAt) acc h).2 ∧ (addAllRun (us.map unitAt) acc h).1 < (addAllRun (us.map unitAt) acc h).2.length ∧
      (addAllRun (us.map unitAt) acc h).2.getSet (addAllRun (us.map unitAt) acc h).1 = us.foldl TileSet.add (h.getSet acc) := by
  induction us generalizing acc h with
  | nil => exact ⟨List.prefix_refl _, ha, rfl⟩
  | cons u us ih =>
    obtain ⟨h1, h2⟩ := hu u (by simp)
    simp only [List.map_cons, addAllRun, addSets_eq h1, h2, List.foldl_cons]
    have p : h <+: h ++ [Obj.set (TileSet.add (h.getSet acc) u)] := prefix_new _ _
    obtain ⟨a, b, c⟩ := ih (acc := h.length) (h := h ++ [Obj.set (TileSet.add (h.getSet acc) u)]) (by simp) (fun v hv => by
      obtain ⟨q1, q2⟩ := hu v (by simp [hv])
      exact ⟨Nat.lt_of_lt_of_le q1 p.length_le, by rw [getSet_of_prefix p q1]; exact q2⟩)
    exact ⟨p.trans a, b, by rw [c, getSet_new]⟩

theorem batchRun_ok {hand : Nat} {h0 : Store} (hh : hand < h0.length) (vals : List HRes)
    (hv : ∀ v ∈ vals, ∀ u ∈ v.units, unitAt u < h0.length ∧ h0.getSet (unitAt u) = u) (ys : List (HYield × Store))
    (hy : ys.map (fun y => (y.1.count, y.1.units, y.2.getSet y.1.borrowed)) = vals.map (fun v => (v.count, v.units.map unitAt, v.borrowed)))
    (acc : List (Tile × List Tile)) {h : Store} (hp : h0 <+: h) :
    (batchRun hand ys acc h).1 = vals.foldl (batchStep (h0.getSet hand)) acc ∧ h0 <+: (batchRun hand ys acc h).2 := by
  induction vals generalizing ys acc h with
  | nil =>
    cases ys with
    | nil => exact ⟨rfl, hp⟩
    | cons _ _ => simp at hy
  | cons v vals ih =>
    cases ys with
    | nil => simp at hy
    | cons y ys =>
      simp only [List.map_cons, List.cons.injEq, Prod.mk.injEq] at hy
      obtain ⟨⟨_, y2, y3⟩, hy'⟩ := hy
      have p1 : h0 <+: h ++ [Obj.set []] := hp.trans (prefix_new _ _)
      obtain ⟨a, b, c⟩ := addAllRun_ok (unitAt := unitAt) v.units (acc := h.length) (h := h ++ [Obj.set []]) (by simp) (fun u hu => by
        obtain ⟨q1, q2⟩ := hv v (by simp) u hu
        exact ⟨Nat.lt_of_lt_of_le q1 p1.length_le, by rw [getSet_of_prefix p1 q1]; exact q2⟩)
      rw [getSet_new] at c
      simp only [batchRun, y2, y3, List.foldl_cons]
      generalize addAllRun (v.units.map unitAt) h.length (h ++ [Obj.set []]) = x at a b c
      obtain ⟨win, h1⟩ := x
      simp only at a b c
      simp only [subSets_eq b, getSet_new, c]
      have p2 : h0 <+: h1 := p1.trans a
      rw [getSet_of_prefix p2 hh]
      exact ih (fun v hv' => hv v (by simp [hv'])) ys hy' _ (p2.trans (prefix_new _ _))

theorem SharedIn.group {h : Store} (hs : SharedIn unitAt h) {g : Group} (hg : g.Proper) :
    unitAt (unitOf g) < h.length ∧ h.getSet (unitAt (unitOf g)) = unitOf g := by
  have key : ∀ u, h[unitAt u]? = some (.set u) → unitAt u < h.length ∧ h.getSet (unitAt u) = u := by
    intro u hu
    refine ⟨?_, by unfold Store.getSet; rw [hu]⟩
    by_contra hn
    rw [List.getElem?_eq_none (by omega)] at hu
    cases hu
  cases g with
  | pair k =>
    exact key _ (hs (plain k) (realTile_plain hg) (unitOf (.pair k)) (.inl (by rw [repeat_two, view_plain]; rfl)))
  | trip k =>
    exact key _ (hs (plain k) (realTile_plain hg) (unitOf (.trip k)) (.inr (.inl (by rw [repeat_three, view_plain]; rfl))))
  | run k =>
    obtain ⟨a, b, c⟩ := hg
    have hr : RealTile (plain k) := realTile_plain (.inl ⟨a, b, by omega⟩)
    refine key _ (hs (plain k) hr (unitOf (.run k)) (.inr (.inr ?_)))
    rw [flush_eq hr, view_plain, if_pos ⟨a, c⟩]

theorem heurBatchRun_ok (m : Int) (w : Pattern) (ig : Bool) {hand : Nat} {h : Store} {s : TileSet} (hs : Shared unitAt hand h)
    (hh : h[hand]? = some (.set s)) (hok : HandOK s) :
    (heurBatchRun unitAt w ig hand h).1 = heurBatch m w ig s ∧ OnlySorted hand h (heurBatchRun unitAt w ig hand h).2 := by
  have hl : hand < h.length := by
    by_contra hn
    rw [List.getElem?_eq_none (by omega)] at hh
    cases hh
  have e : h.getSet hand = s := by unfold Store.getSet; rw [hh]
  obtain ⟨a, _, c⟩ := heurBeforeRun_ok m w true hs hl
  rw [e] at a
  simp only [heurBatchRun, heurBatch, ← a]
  generalize heurBeforeRun unitAt w true hand h = x at c
  obtain ⟨o, m', h1⟩ := x
  simp only at c
  cases o with
  | error e => exact ⟨rfl, OnlySorted.of_prefix hh c⟩
  | ok sw =>
    obtain ⟨r, k⟩ := second_half (w := w) (ig := ig) (sw := sw) hs hh c
    have hl1 := lt_sorted hl c
    have g1 : h1.getSet hand = reSort s := by rw [getSet_sorted hl c, e]
    have g2 : (h1.reSort hand).getSet hand = reSort s := by rw [getSet_reSort hl1, g1, reSort_of_sorted (reSort_sorted hok.1)]
    have sh : SharedIn unitAt (h1.reSort hand) := (((hs.put _).mono c).put _).in
    obtain ⟨b1, b2⟩ := batchRun_ok (unitAt := unitAt) (hand := hand) (h0 := h1.reSort hand) (by rw [length_reSort]; exact hl1)
      (heurCombos w ig (reSort s) sw).1
      (by
        intro v hv u hu
        rw [heurCombos_eq] at hv
        obtain ⟨D, hD, _, hD', _⟩ := hTop_sound hok.reSort hv
        rw [hD'] at hu
        obtain ⟨g, hg, rfl⟩ := List.mem_map.1 hu
        exact sh.group (hD.proper g hg))
      _ r.1.2 [] r.2.2
    rw [g2] at b1
    refine ⟨?_, k _ b2⟩
    simp only [Except.map, b1]

end Verif.Proofs
