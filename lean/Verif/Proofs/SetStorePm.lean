import Verif.Proofs.SetStoreBrute

/-! The pattern-match waiting analysis with objects. -/
namespace Verif.Proofs
open Verif.Py Verif.Model Verif.Spec

variable {unitAt : TileSet → Nat}

/-! ### `borrowed_limit` -/

theorem foldl_limit (ts : List Tile) (g : Store) (b : TileSet) :
    ts.foldl (fun (s : Store) t => s.putSet g.length (Counter.set (s.getSet g.length) t (Counter.get (s.getSet g.length) (view t) - 4)))
      (g ++ [.set b]) = g ++ [.set (ts.foldl (fun b t => Counter.set b t (Counter.get b (view t) - 4)) b)] := by
  induction ts generalizing b with
  | nil => rfl
  | cons t ts ih => rw [List.foldl_cons, List.foldl_cons, getSet_new, putSet_new, ih]

theorem reSort_append {h : Store} {hand : Nat} (hh : hand < h.length) (o : Obj) : Store.reSort (h ++ [o]) hand = h.reSort hand ++ [o] := by
  unfold Store.reSort Store.putSet
  rw [getSet_of_prefix (prefix_new _ _) hh, List.set_append_left _ _ hh]

theorem borrowedLimitRun_eq {h : Store} {hand : Nat} (hh : hand < h.length) :
    borrowedLimitRun hand h = (h.length, h.reSort hand ++ [.set (borrowedLimit (h.getSet hand))]) := by
  simp only [borrowedLimitRun, Store.copySet, reSort_append hh]
  have := foldl_limit ALL_TILES (h.reSort hand) (h.getSet hand)
  rw [length_reSort] at this
  rw [this]
  rfl

/-! ### `_win_selections_in_tiles` -/

/-- the yields are these selections with these borrowed tiles, and every object of `h` is as it was at each yield and at the end -/
structure PmOK (unitAt : TileSet → Nat) (h : Store) (vals : List (Selection × TileSet)) (r : List ((List Nat × Nat) × Store) × Store) : Prop where
  at_yield : ∀ y ∈ r.1, h <+: y.2
  at_end : h <+: r.2
  yields : r.1.map (fun y => (y.1.1, y.2.getSet y.1.2)) = vals.map (fun v => (v.1.map unitAt, v.2))

theorem PmOK.mono {h h' : Store} {vals : List (Selection × TileSet)} {r : List ((List Nat × Nat) × Store) × Store} (hr : PmOK unitAt h' vals r)
    (hp : h <+: h') : PmOK unitAt h vals r :=
  ⟨fun y hy => hp.trans (hr.at_yield y hy), hp.trans hr.at_end, hr.yields⟩

theorem PmOK.append {h : Store} {v1 v2 : List (Selection × TileSet)} {y1 y2 : List ((List Nat × Nat) × Store)} {h1 h2 : Store}
    (r1 : PmOK unitAt h v1 (y1, h1)) (r2 : PmOK unitAt h v2 (y2, h2)) : PmOK unitAt h (v1 ++ v2) (y1 ++ y2, h2) := by
  refine ⟨fun y hy => ?_, r2.at_end, by simp only [List.map_append]; rw [r1.yields, r2.yields]⟩
  rcases List.mem_append.1 hy with hy | hy
  · exact r1.at_yield y hy
  · exact r2.at_yield y hy

theorem PmOK.cons {h : Store} {v : List (Selection × TileSet)} {ys : List ((List Nat × Nat) × Store)} {h1 : Store}
    (r : PmOK unitAt h v (ys, h1)) (u : TileSet) :
    PmOK unitAt h (v.map (fun r => (u :: r.1, r.2))) (ys.map (fun y => ((unitAt u :: y.1.1, y.1.2), y.2)), h1) := by
  refine ⟨fun y hy => ?_, r.at_end, ?_⟩
  · obtain ⟨y', hy', rfl⟩ := List.mem_map.1 hy
    exact r.at_yield y' hy'
  · have := r.yields
    simp only at this
    simp only [List.map_map, Function.comp_def, List.map_cons]
    have := congrArg (List.map (fun l : List Nat × TileSet => (unitAt u :: l.1, l.2))) this
    simpa only [List.map_map, Function.comp_def] using this

/-- what a recursive call is expected to do; it may use up the list handed to it -/
def PmRecOK (unitAt : TileSet → Nat) (limits : Nat) (lim : TileSet) (pure : TileSet → Pattern → List Tile → List (Selection × TileSet))
    (rec : Nat → Pattern → Nat → Store → List ((List Nat × Nat) × Store) × Store) : Prop :=
  ∀ (hand : Nat) (w : Pattern) (start : Nat) (h0 h : Store), SharedIn unitAt h0 → h0 <+: h → h0.length ≤ start → start < h.length → hand < h.length →
    limits < h0.length → h0.getSet limits = lim → (∀ t ∈ h.getTiles start, RealTile t) →
    PmOK unitAt h0 (pure (h.getSet hand) w (h.getTiles start)) (rec hand w start h)

theorem length_putTiles (h : Store) (r : Nat) (l : List Tile) : (h.putTiles r l).length = h.length := by simp [Store.putTiles]

theorem getTiles_putTiles {h : Store} {r : Nat} (hr : r < h.length) (l : List Tile) : (h.putTiles r l).getTiles r = l := by
  simp [Store.getTiles, Store.putTiles, hr]

section
variable {limits : Nat} {lim : TileSet} {pure : TileSet → Pattern → List Tile → List (Selection × TileSet)}
  {rec : Nat → Pattern → Nat → Store → List ((List Nat × Nat) × Store) × Store}

theorem pmUnitsRun_ok (hrec : PmRecOK unitAt limits lim pure rec) {hand start : Nat} (es : List (TileSet × Pattern)) {h : Store}
    (hs : SharedIn unitAt h) (hh : hand < h.length) (hst : start < h.length) (hl : limits < h.length) (hlim : h.getSet limits = lim)
    (hr : ∀ t ∈ h.getTiles start, RealTile t) (hes : Stored unitAt h es) :
    PmOK unitAt h (es.flatMap (fun e => (pure (Counter.subtract (h.getSet hand) e.1) e.2 (h.getTiles start)).map (fun r => (e.1 :: r.1, r.2))))
      (pmUnitsRun rec hand start (unitRefs unitAt es) h) := by
  induction es generalizing h with
  | nil => exact ⟨by simp [unitRefs, pmUnitsRun], List.prefix_refl _, rfl⟩
  | cons e es ih =>
    obtain ⟨u, w'⟩ := e
    obtain ⟨hu, hu'⟩ := hes (u, w') (by simp)
    have gu : Store.getSet (h ++ [Obj.set (h.getSet hand)]) (unitAt u) = u := by rw [getSet_of_prefix (prefix_new _ _) hu]; exact hu'
    simp only [unitRefs, List.map_cons, pmUnitsRun, Store.copySet, Store.copyTiles, List.flatMap_cons, getSet_new, gu, putSet_new]
    obtain ⟨h2, e2⟩ : ∃ h2 : Store, h2 = h ++ [.set (Counter.subtract (h.getSet hand) u)] := ⟨_, rfl⟩
    have p2 : h <+: h2 := by rw [e2]; exact prefix_new _ _
    have l2 : h2.length = h.length + 1 := by rw [e2]; simp
    have gt : h2.getTiles start = h.getTiles start := getTiles_of_prefix p2 hst
    simp only [← e2, gt]
    have p3 : h <+: h2 ++ [.tiles (h.getTiles start)] := p2.trans (prefix_new _ _)
    have r1 := hrec h.length w' h2.length h (h2 ++ [.tiles (h.getTiles start)]) hs p3 (by omega) (by simp) (by simp; omega) hl hlim
      (by rw [getTiles_new]; exact hr)
    rw [getTiles_new, getSet_of_prefix (prefix_new _ _) (by omega), e2, getSet_new, ← e2] at r1
    generalize rec h.length w' h2.length (h2 ++ [.tiles (h.getTiles start)]) = r at r1
    obtain ⟨ys, h4⟩ := r
    have p4 : h <+: h4 := r1.at_end
    have r2 := ih (hs.mono p4) (Nat.lt_of_lt_of_le hh p4.length_le) (Nat.lt_of_lt_of_le hst p4.length_le) (Nat.lt_of_lt_of_le hl p4.length_le)
      (by rw [getSet_of_prefix p4 hl]; exact hlim) (by rw [getTiles_of_prefix p4 hst]; exact hr)
      (Stored.mono (fun e he => hes e (by simp [he])) p4)
    rw [getSet_of_prefix p4 hh, getTiles_of_prefix p4 hst] at r2
    simp only [unitRefs] at r2
    exact ((r1.cons u).append (r2.mono p4) :)

theorem pmTilesRun_ok (hrec : PmRecOK unitAt limits lim pure rec) {w : Pattern} {hand start : Nat} (l : List Tile) {h0 h : Store}
    (hs : SharedIn unitAt h0) (hp : h0 <+: h) (h0h : h0.length ≤ hand) (hh : hand < h.length) (h0s : h0.length ≤ start) (hst : start < h.length)
    (hne : hand ≠ start) (hl : limits < h0.length) (hlim : h0.getSet limits = lim) (hg : h.getTiles start = l) (hr : ∀ t ∈ l, RealTile t) :
    PmOK unitAt h0 (pmTiles pure w l (h.getSet hand)) (pmTilesRun unitAt rec w hand start l h) := by
  induction l generalizing h with
  | nil => exact ⟨by simp [pmTilesRun], hp, rfl⟩
  | cons t rest ih =>
    have r1 := pmUnitsRun_ok hrec (w.nextStates t) (hs.mono hp) hh hst (Nat.lt_of_lt_of_le hl hp.length_le)
      (by rw [getSet_of_prefix hp hl]; exact hlim) (by rw [hg]; exact hr) ((hs.mono hp).stored (hr t (by simp)))
    simp only [pmTilesRun, pmTiles]
    have hn : nextRefs unitAt w t = unitRefs unitAt (w.nextStates t) := rfl
    rw [hn]
    rw [hg] at r1
    generalize pmUnitsRun rec hand start (unitRefs unitAt (w.nextStates t)) h = r at r1
    obtain ⟨ys, h1⟩ := r
    have p1 : h <+: h1 := r1.at_end
    have hh1 : hand < h1.length := Nat.lt_of_lt_of_le hh p1.length_le
    have hst1 : start < h1.length := Nat.lt_of_lt_of_le hst p1.length_le
    have g1 : h1.getSet hand = h.getSet hand := getSet_of_prefix p1 hh
    have t1 : h1.getTiles start = t :: rest := by rw [getTiles_of_prefix p1 hst, hg]
    simp only [g1]
    obtain ⟨h2, e2⟩ : ∃ h2 : Store, h2 = (if 0 ≤ Counter.get (h.getSet hand) (view t) then
      h1.putSet hand (Counter.del (h.getSet hand) (view t)) else h1) := ⟨_, rfl⟩
    rw [← e2]
    have p2 : h0 <+: h2 := by
      rw [e2]; split
      · exact prefix_set (hp.trans p1) h0h _
      · exact hp.trans p1
    have l2 : h2.length = h1.length := by
      rw [e2]; split
      · exact length_putSet _ _ _
      · rfl
    have g2 : h2.getSet hand = if 0 ≤ Counter.get (h.getSet hand) (view t) then Counter.del (h.getSet hand) (view t) else h.getSet hand := by
      rw [e2]; split
      · exact getSet_putSet hh1 _
      · exact g1
    have t2 : h2.getTiles start = t :: rest := by
      rw [e2]; split
      · unfold Store.putSet; rw [getTiles_put_ne hne, t1]
      · exact t1
    have t3 : (h2.getTiles start).eraseP (fun x => x.eq t) = rest := by
      rw [t2]; simp [Tile.eq]
    rw [t3]
    have r2 := ih (h := h2.putTiles start rest) (prefix_set p2 h0s _) (by rw [length_putTiles]; omega)
      (by rw [length_putTiles]; omega) (getTiles_putTiles (by omega) _) (fun t ht => hr t (by simp [ht]))
    have g3 : (h2.putTiles start rest).getSet hand = h2.getSet hand := getSet_put_ne (Ne.symm hne) _
    rw [g3, g2] at r2
    exact ((r1.mono hp).append r2 :)
end

theorem pmSelRun_ok {max : Int} {ig : Bool} {limits : Nat} {lim : TileSet} (fuel : Nat) :
    PmRecOK unitAt limits lim (pmSel max ig lim fuel) (pmSelRun unitAt max ig limits fuel) := by
  induction fuel with
  | zero => intro hand w start h0 h _ hp _ _ _ _ _ _; exact ⟨by simp [pmSelRun], hp, rfl⟩
  | succ fuel ih =>
    intro hand w start h0 h hs hp h0s hst hh hl hlim hr
    have gl : h.getSet limits = lim := by rw [getSet_of_prefix hp hl]; exact hlim
    have hl' : limits < h.length := Nat.lt_of_lt_of_le hl hp.length_le
    simp only [pmSelRun, pmSel, gl, Store.copySet]
    by_cases c1 : borrowedTileCount (h.getSet hand) > max
    · rw [if_pos c1, if_pos c1]; exact ⟨by simp, hp, rfl⟩
    rw [if_neg c1, if_neg c1]
    by_cases c2 : (ig && !withinLimits lim (h.getSet hand)) = true
    · rw [if_pos c2, if_pos c2]; exact ⟨by simp, hp, rfl⟩
    rw [if_neg c2, if_neg c2]
    obtain ⟨h1, e1⟩ : ∃ h1 : Store, h1 = (if w.hasWin then h ++ [.set (Counter.neg (h.getSet hand))] else h) := ⟨_, rfl⟩
    have p1 : h <+: h1 := by
      rw [e1]; split
      · exact prefix_new _ _
      · exact List.prefix_refl _
    have g1 : h1.getSet hand = h.getSet hand := getSet_of_prefix p1 hh
    have first : PmOK unitAt h0 (if w.hasWin then [([], Counter.neg (h.getSet hand))] else [])
        ((if w.hasWin then [(([], h.length), h1)] else []), h1) := by
      cases hw : w.hasWin
      · exact ⟨by simp, hp.trans p1, rfl⟩
      · refine ⟨by simpa using hp.trans p1, hp.trans p1, ?_⟩
        rw [hw] at e1
        simp only [if_true] at e1
        simp only [if_true, List.map_cons, List.map_nil, e1, getSet_new]
    simp only [← e1, g1]
    by_cases c3 : w.needCount > Counter.total (Counter.pos (h.getSet hand)) + max
    · rw [if_pos c3, if_pos c3, List.append_nil]; exact first
    rw [if_neg c3, if_neg c3]
    have t2 : Store.getTiles (h1 ++ [.set (h.getSet hand)]) start = h.getTiles start := by
      rw [getTiles_of_prefix (p1.trans (prefix_new _ _)) hst]
    have ll := p1.length_le
    have r := pmTilesRun_ok ih (w := w) (hand := h1.length) (start := start) (h.getTiles start) (h0 := h0)
      (h := h1 ++ [.set (h.getSet hand)]) hs (hp.trans (p1.trans (prefix_new _ _))) (by have := hp.length_le; omega) (by simp) h0s
      (by simp; omega) (by omega) hl hlim t2 hr
    rw [getSet_new] at r
    rw [t2]
    exact (first.append r :)

theorem pmTopRun_ok {w : Pattern} {ig : Bool} {limits hand all : Nat} {max : Int} {h : Store} {s : TileSet} (hs : SharedIn unitAt h)
    (hall : all < h.length) (gall : h.getTiles all = ALL_TILES) (hl : limits < h.length) (gl : h.getSet limits = borrowedLimit s)
    (hh : hand < h.length) (gh : h.getSet hand = reSort s) :
    PmOK unitAt h (pmTop w ig s max) (pmTopRun unitAt all w ig limits hand max h) := by
  simp only [pmTopRun, Store.copyTiles, gall]
  have := pmSelRun_ok (unitAt := unitAt) (max := max) (ig := ig) (limits := limits) (w.needUnits + 1) hand w h.length h (h ++ [.tiles ALL_TILES]) hs
    (prefix_new _ _) (Nat.le_refl _) (by simp) (by simp; omega) hl gl (by rw [getTiles_new]; exact allTiles_real)
  rw [getTiles_new, getSet_of_prefix (prefix_new _ _) hh, gh] at this
  exact this

theorem pmBeforeRunLoop_ok {w : Pattern} {ig : Bool} {limits hand all : Nat} {s : TileSet} (fuel need : Nat) {h : Store} (hs : SharedIn unitAt h)
    (hall : all < h.length) (gall : h.getTiles all = ALL_TILES) (hl : limits < h.length) (gl : h.getSet limits = borrowedLimit s)
    (hh : hand < h.length) (gh : h.getSet hand = reSort s) :
    (pmBeforeRunLoop unitAt all w ig limits hand fuel need h).1 = pmBeforeLoop w ig s fuel need ∧
      h <+: (pmBeforeRunLoop unitAt all w ig limits hand fuel need h).2 := by
  induction fuel generalizing need h with
  | zero => exact ⟨rfl, List.prefix_refl _⟩
  | succ fuel ih =>
    have r := pmTopRun_ok (w := w) (ig := ig) (max := need) hs hall gall hl gl hh gh
    simp only [pmBeforeRunLoop, pmBeforeLoop]
    generalize pmTopRun unitAt all w ig limits hand need h = x at r
    obtain ⟨ys, h1⟩ := x
    have hy := congrArg List.length r.yields
    simp only [List.length_map] at hy
    cases ys with
    | nil =>
      have : pmTop w ig s need = [] := by rw [← List.length_eq_zero_iff, ← hy]; rfl
      have p : h <+: h1 := r.at_end
      have r2 := ih (need + 1) (hs.mono p) (Nat.lt_of_lt_of_le hall p.length_le) (by rw [getTiles_of_prefix p hall]; exact gall)
        (Nat.lt_of_lt_of_le hl p.length_le) (by rw [getSet_of_prefix p hl]; exact gl) (Nat.lt_of_lt_of_le hh p.length_le)
        (by rw [getSet_of_prefix p hh]; exact gh)
      rw [this]
      exact ⟨by simpa using r2.1, p.trans r2.2⟩
    | cons y ys =>
      obtain ⟨y, h2⟩ := y
      refine ⟨?_, r.at_yield (y, h2) (by simp)⟩
      cases hw : pmTop w ig s need with
      | nil => rw [hw] at hy; simp at hy
      | cons _ _ => rfl

/-- the objects after `borrowed_limit` -/
theorem limits_ok {hand all : Nat} {h : Store} (hs : Shared unitAt hand h) (hh : hand < h.length) (hall : all < h.length) (hne : all ≠ hand)
    (gall : h.getTiles all = ALL_TILES) :
    let h1 := h.reSort hand ++ [Obj.set (borrowedLimit (h.getSet hand))]
    SharedIn unitAt h1 ∧ all < h1.length ∧ Store.getTiles h1 all = ALL_TILES ∧ h.length < h1.length ∧
      Store.getSet h1 h.length = borrowedLimit (h.getSet hand) ∧ hand < h1.length ∧ Store.getSet h1 hand = reSort (h.getSet hand) := by
  have l : (h.reSort hand).length = h.length := length_reSort _ _
  refine ⟨(hs.put _).in.mono (prefix_new _ _), by simp; omega, ?_, by simp; omega, ?_, by simp; omega, ?_⟩
  · rw [getTiles_of_prefix (prefix_new _ _) (by omega)]
    exact (getTiles_put_ne (Ne.symm hne) _).trans gall
  · rw [← l, getSet_new]
  · rw [getSet_of_prefix (prefix_new _ _) (by omega), getSet_reSort hh]

theorem pmBeforeRun_ok (w : Pattern) (ig : Bool) (fuel : Nat) {hand all : Nat} {h : Store} (hs : Shared unitAt hand h) (hh : hand < h.length)
    (hall : all < h.length) (hne : all ≠ hand) (gall : h.getTiles all = ALL_TILES) :
    (pmBeforeRun unitAt all w ig fuel hand h).1 = pmBefore w ig fuel (h.getSet hand) ∧
      h.reSort hand <+: (pmBeforeRun unitAt all w ig fuel hand h).2 := by
  obtain ⟨a1, a2, a3, a4, a5, a6, a7⟩ := limits_ok hs hh hall hne gall
  simp only [pmBeforeRun, borrowedLimitRun_eq hh, pmBefore]
  have := pmBeforeRunLoop_ok (unitAt := unitAt) (w := w) (ig := ig) fuel 0 a1 a2 a3 a4 a5 a6 a7
  exact ⟨this.1, (prefix_new _ _).trans this.2⟩

theorem pmUseful_eq {h : Store} {vals : List (Selection × TileSet)} {ys : List ((List Nat × Nat) × Store)} {h1 : Store}
    (r : PmOK unitAt h vals (ys, h1)) (s : List Tile) :
    ys.foldl (fun s y => setUpdate s ((y.2.getSet y.1.2).map (fun e => e.1))) s = vals.foldl (fun s r => setUpdate s (r.2.map (fun e => e.1))) s := by
  have h1 := r.yields
  simp only at h1
  have h2 := congrArg (List.map (fun x : List Nat × TileSet => x.2)) h1
  simp only [List.map_map, Function.comp_def] at h2
  have e1 := List.foldl_map (l := ys) (f := fun y => y.2.getSet y.1.2) (g := fun s (c : TileSet) => setUpdate s (c.map (fun e => e.1))) (init := s)
  rw [h2, List.foldl_map] at e1
  exact e1.symm

theorem pmUsefulRunLoop_ok {w : Pattern} {ig : Bool} {limits hand all : Nat} {s : TileSet} (fuel need : Nat) {h : Store} (hs : SharedIn unitAt h)
    (hall : all < h.length) (gall : h.getTiles all = ALL_TILES) (hl : limits < h.length) (gl : h.getSet limits = borrowedLimit s)
    (hh : hand < h.length) (gh : h.getSet hand = reSort s) :
    (pmUsefulRunLoop unitAt all w ig limits hand fuel need h).1 = pmUsefulLoop w ig s fuel need ∧
      h <+: (pmUsefulRunLoop unitAt all w ig limits hand fuel need h).2 := by
  induction fuel generalizing need h with
  | zero => exact ⟨rfl, List.prefix_refl _⟩
  | succ fuel ih =>
    have r := pmTopRun_ok (w := w) (ig := ig) (max := need) hs hall gall hl gl hh gh
    simp only [pmUsefulRunLoop, pmUsefulLoop]
    generalize pmTopRun unitAt all w ig limits hand need h = x at r
    obtain ⟨ys, h1⟩ := x
    have e := pmUseful_eq r []
    have p : h <+: h1 := r.at_end
    simp only [e]
    have e' : (pmTop w ig s need).foldl (fun s r => setUpdate s (r.2.map (fun e => e.1))) [] = pmUsefulAt w ig s need := rfl
    simp only [e']
    by_cases hc : (pmUsefulAt w ig s need).length > 0
    · rw [if_pos hc, if_pos hc]; exact ⟨rfl, p⟩
    · rw [if_neg hc, if_neg hc]
      have r2 := ih (need + 1) (hs.mono p) (Nat.lt_of_lt_of_le hall p.length_le) (by rw [getTiles_of_prefix p hall]; exact gall)
        (Nat.lt_of_lt_of_le hl p.length_le) (by rw [getSet_of_prefix p hl]; exact gl) (Nat.lt_of_lt_of_le hh p.length_le)
        (by rw [getSet_of_prefix p hh]; exact gh)
      exact ⟨r2.1, p.trans r2.2⟩

theorem pmWaitingUsefulRun_ok (w : Pattern) (ig : Bool) (fuel : Nat) {hand all : Nat} {h : Store} (hs : Shared unitAt hand h) (hh : hand < h.length)
    (hall : all < h.length) (hne : all ≠ hand) (gall : h.getTiles all = ALL_TILES) :
    (pmWaitingUsefulRun unitAt all w ig fuel hand h).1 = pmWaitingUseful w ig fuel (h.getSet hand) ∧
      h.reSort hand <+: (pmWaitingUsefulRun unitAt all w ig fuel hand h).2 := by
  obtain ⟨a1, a2, a3, a4, a5, a6, a7⟩ := limits_ok hs hh hall hne gall
  simp only [pmWaitingUsefulRun, borrowedLimitRun_eq hh, pmWaitingUseful]
  have := pmUsefulRunLoop_ok (unitAt := unitAt) (w := w) (ig := ig) fuel 0 a1 a2 a3 a4 a5 a6 a7
  exact ⟨this.1, (prefix_new _ _).trans this.2⟩

end Verif.Proofs
