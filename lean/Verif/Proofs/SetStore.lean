import Verif.Spec.SetStore
import Verif.Proofs.PlainTiles

/-! Win patterns with objects. -/
namespace Verif.Proofs
open Verif.Py Verif.Model Verif.Spec

variable {unitAt : TileSet → Nat}

/-! ### Objects -/

theorem getElem_of_prefix {h h' : Store} (hp : h <+: h') {r : Nat} (hr : r < h.length) : h'[r]? = h[r]? := by
  obtain ⟨t, rfl⟩ := hp
  rw [List.getElem?_append_left hr]

theorem getSet_of_prefix {h h' : Store} (hp : h <+: h') {r : Nat} (hr : r < h.length) : h'.getSet r = h.getSet r := by
  unfold Store.getSet
  rw [getElem_of_prefix hp hr]

theorem getTiles_of_prefix {h h' : Store} (hp : h <+: h') {r : Nat} (hr : r < h.length) : h'.getTiles r = h.getTiles r := by
  unfold Store.getTiles
  rw [getElem_of_prefix hp hr]

theorem getLists_of_prefix {h h' : Store} (hp : h <+: h') {r : Nat} (hr : r < h.length) : h'.getLists r = h.getLists r := by
  unfold Store.getLists
  rw [getElem_of_prefix hp hr]

theorem prefix_set {h h' : Store} (hp : h <+: h') {r : Nat} (hr : h.length ≤ r) (o : Obj) : h <+: h'.set r o := by
  obtain ⟨t, rfl⟩ := hp
  rw [List.set_append_right _ _ hr]
  exact List.prefix_append _ _

theorem prefix_new (h : Store) (o : Obj) : h <+: h ++ [o] := List.prefix_append _ _

theorem getSet_new (h : Store) (s : TileSet) : Store.getSet (h ++ [.set s]) h.length = s := by
  simp [Store.getSet]

theorem getTiles_new (h : Store) (s : List Tile) : Store.getTiles (h ++ [.tiles s]) h.length = s := by
  simp [Store.getTiles]

theorem getLists_new (h : Store) (s : List Nat) : Store.getLists (h ++ [.lists s]) h.length = s := by
  simp [Store.getLists]

theorem getSet_putSet {h : Store} {r : Nat} (hr : r < h.length) (s : TileSet) : (h.putSet r s).getSet r = s := by
  simp [Store.getSet, Store.putSet, hr]

theorem getSet_put_ne {h : Store} {r r' : Nat} (hr : r ≠ r') (o : Obj) : Store.getSet (h.set r o) r' = h.getSet r' := by
  unfold Store.getSet
  rw [List.getElem?_set_ne hr]

theorem getTiles_put_ne {h : Store} {r r' : Nat} (hr : r ≠ r') (o : Obj) : Store.getTiles (h.set r o) r' = h.getTiles r' := by
  unfold Store.getTiles
  rw [List.getElem?_set_ne hr]

theorem getLists_put_ne {h : Store} {r r' : Nat} (hr : r ≠ r') (o : Obj) : Store.getLists (h.set r o) r' = h.getLists r' := by
  unfold Store.getLists
  rw [List.getElem?_set_ne hr]

theorem putSet_putSet (h : Store) (r : Nat) (s t : TileSet) : (h.putSet r s).putSet r t = h.putSet r t := by
  simp [Store.putSet]

theorem length_putSet (h : Store) (r : Nat) (s : TileSet) : (h.putSet r s).length = h.length := by simp [Store.putSet]

theorem putSet_new (h : Store) (s t : TileSet) : Store.putSet (h ++ [.set s]) h.length t = h ++ [.set t] := by
  simp [Store.putSet]

theorem subSets_eq {h : Store} {a b : Nat} (hb : b < h.length) :
    h.subSets a b = (h.length, h ++ [.set (TileSet.sub (h.getSet a) (h.getSet b))]) := by
  simp only [Store.subSets, Store.copySet]
  rw [getSet_new, getSet_of_prefix (prefix_new _ _) hb, putSet_new]
  rfl

theorem addSets_eq {h : Store} {a b : Nat} (hb : b < h.length) :
    h.addSets a b = (h.length, h ++ [.set (TileSet.add (h.getSet a) (h.getSet b))]) := by
  simp only [Store.addSets, Store.copySet, Store.reSort]
  rw [getSet_new, getSet_of_prefix (prefix_new _ _) hb, putSet_new, getSet_new, putSet_new]
  rfl

/-! ### The shared units -/

/-- the objects the units are at -/
def unitRefs (unitAt : TileSet → Nat) (es : List (TileSet × Pattern)) : List (Nat × Pattern) := es.map (fun e => (unitAt e.1, e.2))

/-- the units are where `unitAt` says -/
def SharedIn (unitAt : TileSet → Nat) (h : Store) : Prop :=
  ∀ t, RealTile t → ∀ u, u = t.pair ∨ u = t.triplet ∨ t.flush = some u → h[unitAt u]? = some (.set u)

/-- these units are where `unitAt` says -/
def Stored (unitAt : TileSet → Nat) (h : Store) (es : List (TileSet × Pattern)) : Prop :=
  ∀ e ∈ es, unitAt e.1 < h.length ∧ h.getSet (unitAt e.1) = e.1

theorem nextStates_unit {w : Pattern} {t : Tile} {e : TileSet × Pattern} (he : e ∈ w.nextStates t) :
    e.1 = t.pair ∨ e.1 = t.triplet ∨ t.flush = some e.1 := by
  obtain ⟨u, w'⟩ := e
  cases w with
  | normal p m =>
    simp only [Pattern.nextStates, List.mem_append] at he
    rcases he with he | he
    · split at he
      · simp only [List.mem_singleton, Prod.mk.injEq] at he; exact .inl he.1
      · simp at he
    · split at he
      · rcases List.mem_append.1 he with he | he
        · split at he
          · rename_i f hf
            split at he
            · simp only [List.mem_singleton, Prod.mk.injEq] at he
              exact .inr (.inr (by rw [hf, he.1]))
            · simp at he
          · simp at he
        · simp only [List.mem_singleton, Prod.mk.injEq] at he; exact .inr (.inl he.1)
      · simp at he
  | «unique» p used =>
    simp only [Pattern.nextStates] at he
    split at he
    · simp only [List.mem_singleton, Prod.mk.injEq] at he; exact .inl he.1
    · simp at he

theorem SharedIn.stored {h : Store} (hs : SharedIn unitAt h) {w : Pattern} {t : Tile} (ht : RealTile t) : Stored unitAt h (w.nextStates t) := by
  intro e he
  have := hs t ht e.1 (nextStates_unit he)
  refine ⟨?_, by unfold Store.getSet; rw [this]⟩
  by_contra hn
  rw [List.getElem?_eq_none (by omega)] at this
  cases this

theorem SharedIn.mono {h h' : Store} (hs : SharedIn unitAt h) (hp : h <+: h') : SharedIn unitAt h' := by
  intro t ht u hu
  have := hs t ht u hu
  rw [getElem_of_prefix hp, this]
  by_contra hn
  rw [List.getElem?_eq_none (by omega)] at this
  cases this

theorem Stored.mono {h h' : Store} {es : List (TileSet × Pattern)} (hs : Stored unitAt h es) (hp : h <+: h') : Stored unitAt h' es := by
  intro e he
  obtain ⟨h1, h2⟩ := hs e he
  exact ⟨Nat.lt_of_lt_of_le h1 hp.length_le, by rw [getSet_of_prefix hp h1, h2]⟩

/-! ### `update_possible_units` -/

theorem updateUnits_eq {h : Store} {hand units : Nat} (hne : units ≠ hand) (hu : units < h.length) (es : List (TileSet × Pattern))
    (hes : ∀ e ∈ es, h.getSet (unitAt e.1) = e.1 ∧ units ≠ unitAt e.1) (pu : TileSet) :
    updateUnits hand units (unitRefs unitAt es) (h.putSet units pu) =
      (unitRefs unitAt (es.filter (fun e => TileSet.contains (h.getSet hand) e.1)),
        h.putSet units ((es.filter (fun e => TileSet.contains (h.getSet hand) e.1)).foldl (fun pu us => Counter.update pu us.1) pu)) := by
  induction es generalizing pu with
  | nil => rfl
  | cons e es ih =>
    obtain ⟨u, w'⟩ := e
    obtain ⟨h1, h2⟩ := hes (u, w') (by simp)
    have ih' := ih (fun e he => hes e (by simp [he]))
    simp only [unitRefs, List.map_cons, updateUnits, List.filter_cons] at ih' ⊢
    have e1 : (h.putSet units pu).getSet hand = h.getSet hand := getSet_put_ne hne _
    have e2 : (h.putSet units pu).getSet (unitAt u) = u := (getSet_put_ne h2 _).trans h1
    rw [e1, e2]
    by_cases hc : TileSet.contains (h.getSet hand) u = true
    · rw [if_pos hc, if_pos hc, getSet_putSet hu, putSet_putSet, ih']
      simp
    · rw [if_neg hc, if_neg hc, ih']

theorem updatePossible_eq {h : Store} (hs : SharedIn unitAt h) {w : Pattern} {hand units : Nat} (hne : units ≠ hand) (hu : units < h.length)
    (hs' : ∀ t, RealTile t → ∀ e ∈ w.nextStates t, units ≠ unitAt e.1) (ts : List Tile) (hts : ∀ t ∈ ts, RealTile t) (pu : TileSet) :
    updatePossible unitAt w hand units ts (h.putSet units pu) =
      (ts.map (fun t => (t, unitRefs unitAt (unitsAt w (h.getSet hand) t))),
        h.putSet units ((ts.map (fun t => (t, unitsAt w (h.getSet hand) t))).foldl
          (fun pu tu => tu.2.foldl (fun pu us => Counter.update pu us.1) pu) pu)) := by
  induction ts generalizing pu with
  | nil => rfl
  | cons t ts ih =>
    have ht := hts t (by simp)
    simp only [updatePossible]
    have := updateUnits_eq (unitAt := unitAt) hne hu (w.nextStates t)
      (fun e he => ⟨(hs.stored ht e he).2, hs' t ht e he⟩) pu
    unfold nextRefs
    unfold unitRefs at this
    rw [this]
    simp only
    rw [ih (fun t ht => hts t (by simp [ht]))]
    simp [unitsAt, unitRefs]

/-! ### `_win_selections` -/

/-- the yields are these selections, and every object of `h` is as it was at each yield and at the end -/
structure RunOK (unitAt : TileSet → Nat) (h : Store) (vals : List Selection) (r : List (List Nat × Store) × Store) : Prop where
  at_yield : ∀ y ∈ r.1, h <+: y.2
  at_end : h <+: r.2
  yields : r.1.map (fun y => y.1) = vals.map (fun s => s.map unitAt)

theorem RunOK.mono {h h' : Store} {vals : List Selection} {r : List (List Nat × Store) × Store} (hr : RunOK unitAt h' vals r)
    (hp : h <+: h') : RunOK unitAt h vals r :=
  ⟨fun y hy => hp.trans (hr.at_yield y hy), hp.trans hr.at_end, hr.yields⟩

theorem RunOK.append {h : Store} {v1 v2 : List Selection} {y1 y2 : List (List Nat × Store)} {h1 h2 : Store}
    (r1 : RunOK unitAt h v1 (y1, h1)) (r2 : RunOK unitAt h v2 (y2, h2)) : RunOK unitAt h (v1 ++ v2) (y1 ++ y2, h2) := by
  refine ⟨fun y hy => ?_, r2.at_end, by simp only [List.map_append]; rw [r1.yields, r2.yields]⟩
  rcases List.mem_append.1 hy with hy | hy
  · exact r1.at_yield y hy
  · exact r2.at_yield y hy

theorem RunOK.cons {h : Store} {v : List Selection} {ys : List (List Nat × Store)} {h1 : Store} (r : RunOK unitAt h v (ys, h1)) (u : TileSet) :
    RunOK unitAt h (v.map (fun tail => u :: tail)) (ys.map (fun y => (unitAt u :: y.1, y.2)), h1) := by
  refine ⟨fun y hy => ?_, r.at_end, ?_⟩
  · obtain ⟨y', hy', rfl⟩ := List.mem_map.1 hy
    exact r.at_yield y' hy'
  · have := r.yields
    simp only at this
    simp only [List.map_map, Function.comp_def, List.map_cons]
    have := congrArg (List.map (fun l : List Nat => unitAt u :: l)) this
    simpa only [List.map_map, Function.comp_def] using this

theorem AllReal.filter {c : TileSet} (h : AllReal c) (q : Tile × Int → Bool) : AllReal (c.filter q) :=
  fun e he => h e (List.mem_filter.1 he).1

theorem AllReal_nextStates {w : Pattern} {t : Tile} (ht : RealTile t) {e : TileSet × Pattern} (he : e ∈ w.nextStates t) : AllReal e.1 := by
  obtain ⟨u, w'⟩ := e
  obtain ⟨g, hg, _, _, rfl⟩ := (mem_nextStates ht).1 he
  exact AllReal_unitOf hg

theorem AllReal_sub {c d : TileSet} (hc : AllReal c) (hd : AllReal d) : AllReal (TileSet.sub c d) :=
  (real_subtract hc hd).filter _

/-- what a recursive call is expected to do -/
def RecOK (unitAt : TileSet → Nat) (pure : Pattern → TileSet → List Selection)
    (rec : Pattern → Nat → Store → List (List Nat × Store) × Store) : Prop :=
  ∀ w hand h, SharedIn unitAt h → hand < h.length → AllReal (h.getSet hand) → RunOK unitAt h (pure w (h.getSet hand)) (rec w hand h)

theorem unitsRun_ok {pure : Pattern → TileSet → List Selection} {rec : Pattern → Nat → Store → List (List Nat × Store) × Store}
    (hrec : RecOK unitAt pure rec) (es : List (TileSet × Pattern)) {hand : Nat} {h : Store} (hs : SharedIn unitAt h) (hh : hand < h.length)
    (hr : AllReal (h.getSet hand)) (hes : Stored unitAt h es) (her : ∀ e ∈ es, AllReal e.1) :
    RunOK unitAt h (es.flatMap (fun e => (pure e.2 (TileSet.sub (h.getSet hand) e.1)).map (fun tail => e.1 :: tail)))
      (unitsRun rec hand (unitRefs unitAt es) h) := by
  induction es generalizing h with
  | nil => exact ⟨by simp [unitRefs, unitsRun], List.prefix_refl _, rfl⟩
  | cons e es ih =>
    obtain ⟨u, w'⟩ := e
    obtain ⟨hu, hu'⟩ := hes (u, w') (by simp)
    simp only [unitRefs, List.map_cons, unitsRun, subSets_eq hu, hu', List.flatMap_cons]
    have r1 := hrec w' h.length (h ++ [.set (TileSet.sub (h.getSet hand) u)]) (hs.mono (prefix_new _ _)) (by simp)
      (by rw [getSet_new]; exact AllReal_sub hr (her (u, w') (by simp)))
    rw [getSet_new] at r1
    generalize rec w' h.length (h ++ [.set (TileSet.sub (h.getSet hand) u)]) = r at r1
    obtain ⟨ys, h2⟩ := r
    have p2 : h <+: h2 := (prefix_new _ _).trans r1.at_end
    have r2 := ih (hs.mono p2) (Nat.lt_of_lt_of_le hh p2.length_le) (by rw [getSet_of_prefix p2 hh]; exact hr)
      (Stored.mono (fun e he => hes e (by simp [he])) p2) (fun e he => her e (by simp [he]))
    rw [getSet_of_prefix p2 hh] at r2
    simp only [unitRefs] at r2
    exact (((r1.mono (prefix_new _ _)).cons u).append (r2.mono p2) :)

theorem winLoopRun_ok {pure : Pattern → TileSet → List Selection} {rec : Pattern → Nat → Store → List (List Nat × Store) × Store}
    (hrec : RecOK unitAt pure rec) (l : List (Tile × List (TileSet × Pattern))) {hand : Nat} {h0 h : Store} (hs : SharedIn unitAt h0)
    (hp : h0 <+: h) (hh0 : h0.length ≤ hand) (hh : hand < h.length) (hr : AllReal (h.getSet hand)) (hl : ∀ x ∈ l, Stored unitAt h0 x.2)
    (hlr : ∀ x ∈ l, ∀ e ∈ x.2, AllReal e.1) :
    RunOK unitAt h0 (winLoop pure l (h.getSet hand)) (winLoopRun rec hand (l.map (fun x => (x.1, unitRefs unitAt x.2))) h) := by
  induction l generalizing h with
  | nil => exact ⟨by simp [winLoopRun], hp, rfl⟩
  | cons x l ih =>
    obtain ⟨tile, us⟩ := x
    have r1 := unitsRun_ok hrec us (hs.mono hp) hh hr ((hl (tile, us) (by simp)).mono hp) (hlr (tile, us) (by simp))
    simp only [List.map_cons, winLoopRun, winLoop]
    generalize unitsRun rec hand (unitRefs unitAt us) h = r at r1
    obtain ⟨ys, h1⟩ := r
    have p1 : h <+: h1 := r1.at_end
    have hh1 : hand < h1.length := Nat.lt_of_lt_of_le hh p1.length_le
    have e1 : h1.getSet hand = h.getSet hand := getSet_of_prefix p1 hh
    have r2 := ih (h := h1.putSet hand (Counter.del (h1.getSet hand) (view tile))) (prefix_set (hp.trans p1) hh0 _)
      (by rw [length_putSet]; exact hh1) (by rw [getSet_putSet hh1, e1]; exact hr.filter _)
      (fun x hx => hl x (by simp [hx])) (fun x hx => hlr x (by simp [hx]))
    rw [getSet_putSet hh1, e1] at r2
    simp only [e1]
    exact ((r1.mono hp).append r2 :)

theorem AllReal_foldl_update (l : List (TileSet × Pattern)) {pu : TileSet} (hp : AllReal pu) (hl : ∀ e ∈ l, AllReal e.1) :
    AllReal (l.foldl (fun pu us => Counter.update pu us.1) pu) := by
  induction l generalizing pu with
  | nil => exact hp
  | cons e l ih => exact ih (hp.update (hl e (by simp))) (fun e he => hl e (by simp [he]))

theorem AllReal_possible (l : List (Tile × List (TileSet × Pattern))) {pu : TileSet} (hp : AllReal pu) (hl : ∀ x ∈ l, ∀ e ∈ x.2, AllReal e.1) :
    AllReal (l.foldl (fun pu tu => tu.2.foldl (fun pu us => Counter.update pu us.1) pu) pu) := by
  induction l generalizing pu with
  | nil => exact hp
  | cons x l ih => exact ih (AllReal_foldl_update x.2 hp (hl x (by simp))) (fun x hx => hl x (by simp [hx]))

theorem AllReal_reset {pu hand : TileSet} (hp : AllReal pu) : AllReal (resetCounts pu hand) := by
  intro e he
  unfold resetCounts at he
  obtain ⟨x, hx, rfl⟩ := List.mem_map.1 he
  split
  · exact hp x hx
  · exact hp x hx

theorem winSelRun_ok (fuel : Nat) : RecOK unitAt (winSelF fuel) (winSelRun unitAt fuel) := by
  induction fuel with
  | zero => intro w hand h _ _ _; exact ⟨by simp [winSelRun], List.prefix_refl _, rfl⟩
  | succ fuel ih =>
    intro w hand h hs hh hr
    have hfirst : ∀ h', h <+: h' → RunOK unitAt h (if w.hasWin then [[]] else []) ((if w.hasWin then [([], h)] else []), h') := by
      intro h' hp
      cases w.hasWin
      · exact ⟨by simp, hp, rfl⟩
      · exact ⟨by simp, hp, rfl⟩
    simp only [winSelRun, winSelF, Store.copySet]
    by_cases hn : w.needCount > Counter.total (h.getSet hand)
    · rw [if_pos hn, if_pos hn, List.append_nil]
      exact hfirst h (List.prefix_refl _)
    · rw [if_neg hn, if_neg hn]
      obtain ⟨c, hc⟩ : ∃ c, c = h.getSet hand := ⟨_, rfl⟩
      simp only [← hc] at hr hn ⊢
      obtain ⟨h1, hh1⟩ : ∃ h1 : Store, h ++ [Obj.set c] = h1 := ⟨_, rfl⟩
      simp only [hh1]
      have l1 : h1.length = h.length + 1 := by rw [← hh1]; simp
      have p1 : h <+: h1 := by rw [← hh1]; exact prefix_new _ _
      have g1 : Store.getSet (h1 ++ [Obj.set []]) h.length = c := by
        rw [getSet_of_prefix (prefix_new _ _) (by omega), ← hh1, getSet_new]
      have hs2 : SharedIn unitAt (h1 ++ [Obj.set []]) := hs.mono (p1.trans (prefix_new _ _))
      have hu := updatePossible_eq (h := h1 ++ [Obj.set []]) hs2 (w := w) (hand := h.length) (units := h1.length) (by omega) (by simp)
        (fun t ht e he => by have := (hs.stored ht e he).1; omega) (c.map (fun e => e.1))
        (fun t ht => by obtain ⟨e, he, rfl⟩ := List.mem_map.1 ht; exact hr e he) []
      rw [putSet_new, g1] at hu
      simp only [g1, hu]
      simp only [List.map_map, Function.comp_def]
      have hul : c.map (fun x => (x.1, unitsAt w c x.1)) = unitList w c := rfl
      simp only [hul]
      have hpu : (unitList w c).foldl (fun pu tu => tu.2.foldl (fun pu us => Counter.update pu us.1) pu) [] = possibleUnits w c := rfl
      simp only [hpu, putSet_new]
      have g2 : Store.getSet (h1 ++ [Obj.set (possibleUnits w c)]) h.length = c := by
        rw [getSet_of_prefix (prefix_new _ _) (by omega), ← hh1, getSet_new]
      simp only [getSet_new, g2, putSet_new]
      have hlr : ∀ x ∈ unitList w c, ∀ e ∈ x.2, AllReal e.1 := by
        intro x hx e he
        obtain ⟨y, hy, rfl⟩ := List.mem_map.1 hx
        exact AllReal_nextStates (hr y hy) (List.mem_filter.1 he).1
      by_cases hn2 : w.needCount > Counter.total (resetCounts (possibleUnits w c) c)
      · rw [if_pos hn2, if_pos hn2, List.append_nil]
        exact hfirst _ (p1.trans (prefix_new _ _))
      · rw [if_neg hn2, if_neg hn2]
        have r := winLoopRun_ok ih (unitList w c) (hand := h1.length) (h0 := h)
          (h := h1 ++ [Obj.set (resetCounts (possibleUnits w c) c)]) hs (p1.trans (prefix_new _ _)) (by omega) (by simp)
          (by rw [getSet_new]; exact AllReal_reset (AllReal_possible _ (by intro e he; cases he) hlr))
          (by
            intro x hx e he
            obtain ⟨y, hy, rfl⟩ := List.mem_map.1 hx
            exact hs.stored (w := w) (hr y hy) e (List.mem_filter.1 he).1) hlr
        rw [getSet_new] at r
        have hm : (unitList w c).map (fun x => (x.1, unitRefs unitAt x.2)) = c.map (fun x => (x.1, unitRefs unitAt (unitsAt w c x.1))) := by
          unfold unitList; simp
        rw [hm] at r
        exact ((hfirst h1 p1).append r :)

end Verif.Proofs
