import Verif.Proofs.SetStoreHeur

/-!
Analysing a hand changes no object but the hand, and of the hand only the order of its entries.

`h` is the list of all objects before the call: the hand at reference `hand`, the shared pairs, runs and triplets (`Shared`), the shared list
of all tiles at `all`, and whatever else the program holds.
-/
namespace Verif.Props
open Verif.Py Verif.Model Verif.Spec Verif.Proofs

variable {unitAt : TileSet → Nat} {hand : Nat} {h : Store} {s : TileSet}

theorem at_set (hh : h[hand]? = some (.set s)) : hand < h.length ∧ h.getSet hand = s := by
  refine ⟨?_, by unfold Store.getSet; rw [hh]⟩
  by_contra hn
  rw [List.getElem?_eq_none (by omega)] at hh
  cases hh

/-- **C107.** `match`: the answer is that of `winMatch`, and nothing but the order of the hand's entries has changed. -/
theorem C107_match (w : Pattern) (hs : Shared unitAt hand h) (hh : h[hand]? = some (.set s)) (hok : HandOK s) :
    (matchRun unitAt w hand h).1 = winMatch w s ∧ OnlySorted hand h (matchRun unitAt w hand h).2 := by
  obtain ⟨hl, e⟩ := at_set hh
  have := matchRun_ok w hs hl (by rw [e]; exact hok.2.1)
  rw [e] at this
  exact ⟨this.1, OnlySorted.of_prefix hh this.2⟩

/-- **C107.** `win_selections`: the selections are those of `winSelections`, made of the shared units, and neither when one of them is
    yielded nor at the end has anything changed but the order of the hand's entries.  Both are so for every selection, so the caller may
    stop after any of them. -/
theorem C107_win_selections (w : Pattern) (hs : Shared unitAt hand h) (hh : h[hand]? = some (.set s)) (hok : HandOK s) :
    (winSelectionsRun unitAt w hand h).1.map (fun y => y.1) = (winSelections w s).map (fun sel => sel.map unitAt) ∧
    (∀ y ∈ (winSelectionsRun unitAt w hand h).1, OnlySorted hand h y.2) ∧ OnlySorted hand h (winSelectionsRun unitAt w hand h).2 := by
  obtain ⟨hl, e⟩ := at_set hh
  have := winSelectionsRun_ok w hs hl (by rw [e]; exact hok.2.1)
  rw [e] at this
  exact ⟨this.yields, fun y hy => OnlySorted.of_prefix hh (this.at_yield y hy), OnlySorted.of_prefix hh this.at_end⟩

/-- **C107.** The brute-force analysis: steps, useful tiles, and both. -/
theorem C107_brute_force (w : Pattern) (ig : Bool) (fuel : Nat) (hs : Shared unitAt hand h) (hh : h[hand]? = some (.set s)) (hok : HandOK s) :
    ((bruteBeforeRun unitAt w ig fuel hand h).1 = bruteBefore w ig fuel s ∧ OnlySorted hand h (bruteBeforeRun unitAt w ig fuel hand h).2) ∧
    ((bruteUsefulRun unitAt w ig fuel hand h).1 = bruteUseful w ig fuel s ∧ OnlySorted hand h (bruteUsefulRun unitAt w ig fuel hand h).2) ∧
    ((bruteWaitingUsefulRun unitAt w ig fuel hand h).1 = bruteWaitingUseful w ig fuel s ∧
      OnlySorted hand h (bruteWaitingUsefulRun unitAt w ig fuel hand h).2) := by
  obtain ⟨hl, e⟩ := at_set hh
  have a := bruteBeforeRun_ok w ig fuel hs hl (by rw [e]; exact hok.2.1)
  have b := bruteUsefulRun_ok w ig fuel hs hl (by rw [e]; exact hok.2.1)
  rw [e] at a b
  exact ⟨⟨a.1, OnlySorted.of_prefix hh a.2⟩, ⟨b.1, OnlySorted.of_prefix hh b.2⟩, bruteWaitingUsefulRun_ok w ig fuel hs hh hok.2.1⟩

/-- **C107.** The pattern-match analysis: steps, and steps with useful tiles.  The shared list of all tiles, at `all`, is one of the
    objects that stay as they are. -/
theorem C107_pattern_match (w : Pattern) (ig : Bool) (fuel : Nat) {all : Nat} (hs : Shared unitAt hand h) (hh : h[hand]? = some (.set s))
    (hall : h[all]? = some (.tiles ALL_TILES)) :
    ((pmBeforeRun unitAt all w ig fuel hand h).1 = pmBefore w ig fuel s ∧ OnlySorted hand h (pmBeforeRun unitAt all w ig fuel hand h).2) ∧
    ((pmWaitingUsefulRun unitAt all w ig fuel hand h).1 = pmWaitingUseful w ig fuel s ∧
      OnlySorted hand h (pmWaitingUsefulRun unitAt all w ig fuel hand h).2) := by
  obtain ⟨hl, e⟩ := at_set hh
  have hall' : all < h.length := by
    by_contra hn
    rw [List.getElem?_eq_none (by omega)] at hall
    cases hall
  have gall : h.getTiles all = ALL_TILES := by unfold Store.getTiles; rw [hall]
  have hne : all ≠ hand := by rintro rfl; rw [hh] at hall; cases hall
  have a := pmBeforeRun_ok w ig fuel hs hl hall' hne gall
  have b := pmWaitingUsefulRun_ok w ig fuel hs hl hall' hne gall
  rw [e] at a b
  exact ⟨⟨a.1, OnlySorted.of_prefix hh a.2⟩, b.1, OnlySorted.of_prefix hh b.2⟩

/-- **C107.** The heuristic analysis: steps, steps with useful tiles, and the table of discards. -/
theorem C107_heuristic (m : Int) (w : Pattern) (ig : Bool) (hs : Shared unitAt hand h) (hh : h[hand]? = some (.set s)) (hok : HandOK s) :
    ((heurBeforeRun unitAt w ig hand h).1 = (heurBefore m w ig s).1 ∧ OnlySorted hand h (heurBeforeRun unitAt w ig hand h).2.2) ∧
    ((heurWaitingUsefulRun unitAt w ig hand h).1 = heurWaitingUseful m w ig s ∧ OnlySorted hand h (heurWaitingUsefulRun unitAt w ig hand h).2) ∧
    ((heurBatchRun unitAt w ig hand h).1 = heurBatch m w ig s ∧ OnlySorted hand h (heurBatchRun unitAt w ig hand h).2) := by
  obtain ⟨hl, e⟩ := at_set hh
  have a := heurBeforeRun_ok m w ig hs hl
  rw [e] at a
  exact ⟨⟨a.1, OnlySorted.of_prefix hh a.2.2⟩, heurWaitingUsefulRun_ok m w ig hs hh, heurBatchRun_ok m w ig hs hh hok⟩

/-- **C107.** What `OnlySorted` means for the counts: the hand holds as many tiles of every kind as before. -/
theorem C107_counts {h' : Store} (hh : h[hand]? = some (.set s)) (hok : HandOK s) (ho : OnlySorted hand h h') : KeepsCounts hand s h' := by
  obtain ⟨_, t, s', ht, hs', hp⟩ := ho
  rw [hh] at ht
  cases ht
  have hw : Counter.WF s' := (WF_perm hp).2 hok.1
  exact ⟨s', hs', ⟨hw, fun e he => hok.2.1 e (hp.mem_iff.1 he), fun e he => hok.2.2 e (hp.mem_iff.1 he)⟩, fun k => get_perm hp hw k⟩

/-- **C12.** `match` and `win_selections` leave the caller's hand with the counts it had, wherever the caller stops. -/
theorem C12_hand_kept (w : Pattern) (hs : Shared unitAt hand h) (hh : h[hand]? = some (.set s)) (hok : HandOK s) :
    KeepsCounts hand s (matchRun unitAt w hand h).2 ∧
    (∀ y ∈ (winSelectionsRun unitAt w hand h).1, KeepsCounts hand s y.2) ∧ KeepsCounts hand s (winSelectionsRun unitAt w hand h).2 := by
  obtain ⟨_, b, c⟩ := C107_win_selections w hs hh hok
  exact ⟨C107_counts hh hok (C107_match w hs hh hok).2, fun y hy => C107_counts hh hok (b y hy), C107_counts hh hok c⟩

/-- **C22.** Every call of the three analyses leaves the caller's hand with the counts it had. -/
theorem C22_hand_keeps_counts (w : Pattern) (ig : Bool) (fuel : Nat) {all : Nat} (hs : Shared unitAt hand h) (hh : h[hand]? = some (.set s))
    (hall : h[all]? = some (.tiles ALL_TILES)) (hok : HandOK s) :
    KeepsCounts hand s (bruteBeforeRun unitAt w ig fuel hand h).2 ∧ KeepsCounts hand s (bruteUsefulRun unitAt w ig fuel hand h).2 ∧
    KeepsCounts hand s (bruteWaitingUsefulRun unitAt w ig fuel hand h).2 ∧ KeepsCounts hand s (pmBeforeRun unitAt all w ig fuel hand h).2 ∧
    KeepsCounts hand s (pmWaitingUsefulRun unitAt all w ig fuel hand h).2 ∧ KeepsCounts hand s (heurBeforeRun unitAt w ig hand h).2.2 ∧
    KeepsCounts hand s (heurWaitingUsefulRun unitAt w ig hand h).2 ∧ KeepsCounts hand s (heurBatchRun unitAt w ig hand h).2 := by
  obtain ⟨a1, a2, a3⟩ := C107_brute_force w ig fuel hs hh hok
  obtain ⟨b1, b2⟩ := C107_pattern_match w ig fuel hs hh hall
  obtain ⟨c1, c2, c3⟩ := C107_heuristic 0 w ig hs hh hok
  exact ⟨C107_counts hh hok a1.2, C107_counts hh hok a2.2, C107_counts hh hok a3.2, C107_counts hh hok b1.2, C107_counts hh hok b2.2,
    C107_counts hh hok c1.2, C107_counts hh hok c2.2, C107_counts hh hok c3.2⟩

/-! ### The operators of tile sets -/

/-- **C05.** The operators leave every object as it was, the operands too (`h` is a prefix of the objects afterwards), and the result is a
    new object that holds what the operator is specified to give. -/
theorem C05_operands_kept (h : Store) (a b : Nat) (hb : b < h.length) :
    (∀ r ∈ [h.addSets a b, h.subSets a b, h.andSets a b, h.orSets a b, h.copySet a], h <+: r.2 ∧ h.length ≤ r.1 ∧ r.1 < r.2.length) ∧
    (h.addSets a b).2.getSet (h.addSets a b).1 = TileSet.add (h.getSet a) (h.getSet b) ∧
    (h.subSets a b).2.getSet (h.subSets a b).1 = TileSet.sub (h.getSet a) (h.getSet b) ∧
    (h.andSets a b).2.getSet (h.andSets a b).1 = TileSet.and (h.getSet a) (h.getSet b) ∧
    (h.orSets a b).2.getSet (h.orSets a b).1 = TileSet.or (h.getSet a) (h.getSet b) ∧
    (h.copySet a).2.getSet (h.copySet a).1 = h.getSet a ∧
    (h <+: (h.excludeSets a b).2 ∧
      (h.excludeSets a b).1.map (fun r => (h.excludeSets a b).2.getSet r) = TileSet.exclude (h.getSet a) (h.getSet b)) := by
  have ne : ∀ o : Obj, h <+: h ++ [o] ∧ h.length ≤ h.length ∧ h.length < (h ++ [o]).length := fun o => ⟨prefix_new _ _, Nat.le_refl _, by simp⟩
  refine ⟨?_, ?_, ?_, getSet_new _ _, getSet_new _ _, getSet_new _ _, ?_⟩
  · intro r hr
    rw [addSets_eq hb, subSets_eq hb] at hr
    simp only [List.mem_cons, List.not_mem_nil, or_false] at hr
    rcases hr with rfl | rfl | rfl | rfl | rfl <;> exact ne _
  · rw [addSets_eq hb, getSet_new]
  · rw [subSets_eq hb, getSet_new]
  · unfold Store.excludeSets TileSet.exclude
    split
    · rw [subSets_eq hb]
      exact ⟨prefix_new _ _, by simp [getSet_new]⟩
    · exact ⟨List.prefix_refl _, rfl⟩

/-! ### An instance: all shared units, the list of all tiles, another hand, and the hand `2m 1m 1m 0p` -/

/-- the shared units -/
def exUnits : List TileSet :=
  allKinds.map (fun k => (plain k).pair) ++ allKinds.map (fun k => (plain k).triplet) ++ allKinds.filterMap (fun k => (plain k).flush)

def exStore : Store :=
  exUnits.map Obj.set ++ [.tiles ALL_TILES, .set (Counter.ofIter [⟨.z,3,false⟩,⟨.m,1,false⟩]),
    .set [(⟨.m,2,false⟩, 1), (⟨.m,1,false⟩, 2), (⟨.p,0,true⟩, 1)]]

example : exStore.length = 92 := by decide +kernel

example : Shared (fun u => exUnits.idxOf u) 91 exStore ∧ exStore[91]? = some (.set [(⟨.m,2,false⟩, 1), (⟨.m,1,false⟩, 2), (⟨.p,0,true⟩, 1)]) ∧
    exStore[89]? = some (.tiles ALL_TILES) ∧ HandOK [(⟨.m,2,false⟩, 1), (⟨.m,1,false⟩, 2), (⟨.p,0,true⟩, 1)] := by
  refine ⟨?_, by decide +kernel, rfl, by decide⟩
  have key : ∀ u ∈ exUnits, exStore[exUnits.idxOf u]? = some (.set u) ∧ exUnits.idxOf u ≠ 91 := by
    intro u hu
    have hi : exUnits.idxOf u < exUnits.length := List.idxOf_lt_length_of_mem hu
    have hl : exUnits.length = 89 := by decide +kernel
    refine ⟨?_, by omega⟩
    unfold exStore
    rw [List.getElem?_append_left (by simpa using hi), List.getElem?_map, List.getElem?_eq_getElem hi, List.getElem_idxOf]
    rfl
  intro t ht u hu
  refine key u ?_
  have hk : t.view ∈ allKinds := mem_allKinds.2 ht.1
  unfold exUnits
  simp only [List.mem_append, List.mem_map, List.mem_filterMap]
  rcases hu with rfl | rfl | hu
  · exact .inl (.inl ⟨t.view, hk, by rw [repeat_two, repeat_two, view_plain]⟩)
  · exact .inl (.inr ⟨t.view, hk, by rw [repeat_three, repeat_three, view_plain]⟩)
  · refine .inr ⟨t.view, hk, ?_⟩
    rw [flush_eq (realTile_plain ht.1), view_plain, ← hu, flush_eq ht]
    rfl

end Verif.Props
