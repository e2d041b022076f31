import Verif.Proofs.SetStore
import Verif.Proofs.BruteForce

/-! `match` and the brute-force waiting analysis with objects. -/
namespace Verif.Proofs
open Verif.Py Verif.Model Verif.Spec

variable {unitAt : TileSet → Nat}

theorem _root_.Verif.Spec.Shared.in {hand : Nat} {h : Store} (hs : Shared unitAt hand h) : SharedIn unitAt h := fun t ht u hu => (hs t ht u hu).1

theorem _root_.Verif.Spec.Shared.put {hand : Nat} {h : Store} (hs : Shared unitAt hand h) (s : TileSet) : Shared unitAt hand (h.putSet hand s) := by
  intro t ht u hu
  obtain ⟨h1, h2⟩ := hs t ht u hu
  exact ⟨by unfold Store.putSet; rw [List.getElem?_set_ne (Ne.symm h2)]; exact h1, h2⟩

theorem SharedIn.shared {h h' : Store} (hs : SharedIn unitAt h) (hp : h <+: h') {r : Nat} (hr : h.length ≤ r) : Shared unitAt r h' := by
  intro t ht u hu
  refine ⟨hs.mono hp t ht u hu, ?_⟩
  have := hs t ht u hu
  intro he
  rw [List.getElem?_eq_none (by omega)] at this
  cases this

theorem _root_.Verif.Spec.Shared.mono {hand : Nat} {h h' : Store} (hs : Shared unitAt hand h) (hp : h <+: h') : Shared unitAt hand h' :=
  fun t ht u hu => ⟨hs.in.mono hp t ht u hu, (hs t ht u hu).2⟩

theorem length_reSort (h : Store) (r : Nat) : (h.reSort r).length = h.length := length_putSet _ _ _

theorem AllReal_reSort {c : TileSet} (h : AllReal c) : AllReal (reSort c) := fun e he => h e ((reSort_perm c).mem_iff.1 he)

theorem prefix_reSort_new {h h' : Store} (hp : h <+: h') {r : Nat} (hr : h.length ≤ r) : h <+: h'.reSort r := prefix_set hp hr _

theorem winSelectionsRun_ok (w : Pattern) {hand : Nat} {h : Store} (hs : Shared unitAt hand h) (hh : hand < h.length)
    (hr : AllReal (h.getSet hand)) :
    RunOK unitAt (h.reSort hand) (winSelections w (h.getSet hand)) (winSelectionsRun unitAt w hand h) := by
  have := winSelRun_ok (unitAt := unitAt) (w.needUnits + 1) w hand (h.reSort hand) (hs.put _).in (by rw [length_reSort]; exact hh)
    (by unfold Store.reSort; rw [getSet_putSet hh]; exact AllReal_reSort hr)
  have e : (h.reSort hand).getSet hand = reSort (h.getSet hand) := getSet_putSet hh _
  rw [e] at this
  exact this

theorem matchRun_ok (w : Pattern) {hand : Nat} {h : Store} (hs : Shared unitAt hand h) (hh : hand < h.length)
    (hr : AllReal (h.getSet hand)) :
    (matchRun unitAt w hand h).1 = winMatch w (h.getSet hand) ∧ h.reSort hand <+: (matchRun unitAt w hand h).2 := by
  have r := winSelectionsRun_ok w hs hh hr
  unfold matchRun winMatch
  generalize winSelectionsRun unitAt w hand h = x at r
  obtain ⟨ys, h'⟩ := x
  have hy := congrArg List.length r.yields
  simp only [List.length_map] at hy
  cases ys with
  | nil =>
    have : winSelections w (h.getSet hand) = [] := by
      rw [← List.length_eq_zero_iff, ← hy]; rfl
    rw [this]
    exact ⟨rfl, r.at_end⟩
  | cons y ys =>
    refine ⟨?_, r.at_yield y (by simp)⟩
    cases hw : winSelections w (h.getSet hand) with
    | nil => rw [hw] at hy; simp at hy
    | cons _ _ => rfl

/-! ### BruteForceWaiting -/

theorem AllReal_add {c d : TileSet} (hc : AllReal c) (hd : AllReal d) : AllReal (TileSet.add c d) :=
  AllReal_reSort (AllReal.filter (AllReal.foldl_set _ hc hd) _)

/-- the sum with a new tile set -/
theorem added_eq {h : Store} {hand : Nat} (hh : hand < h.length) (d : TileSet) :
    Store.addSets (h ++ [.set d]) hand h.length =
      (h.length + 1, h ++ [.set d] ++ [.set (TileSet.add (h.getSet hand) d)]) := by
  rw [addSets_eq (by simp), getSet_of_prefix (prefix_new _ _) hh, getSet_new]
  simp

theorem bruteTestRun_ok (w : Pattern) (ig : Bool) {hand : Nat} {h : Store} (hs : SharedIn unitAt h) (hh : hand < h.length)
    (hr : AllReal (h.getSet hand)) {ts : List Tile} (ht : ∀ t ∈ ts, RealTile t) :
    (bruteTestRun unitAt w hand ig ts h).1 = bruteTest w (h.getSet hand) ig ts ∧ h <+: (bruteTestRun unitAt w hand ig ts h).2 := by
  simp only [bruteTestRun, bruteTest, added_eq hh]
  obtain ⟨h2, e2⟩ : ∃ h2 : Store, h2 = h ++ [.set (Counter.ofIter ts)] ++ [.set (TileSet.add (h.getSet hand) (Counter.ofIter ts))] := ⟨_, rfl⟩
  have p2 : h <+: h2 := by rw [e2]; exact (prefix_new _ _).trans (prefix_new _ _)
  have g : h2.getSet (h.length + 1) = TileSet.add (h.getSet hand) (Counter.ofIter ts) := by
    rw [e2, show h.length + 1 = (h ++ [Obj.set (Counter.ofIter ts)]).length by simp, getSet_new]
  have l2 : h.length + 1 < h2.length := by rw [e2]; simp
  have m := matchRun_ok w (hs.shared p2 (r := h.length + 1) (by omega)) l2
    (by rw [g]; exact AllReal_add hr (keys_ofIter_real ht))
  rw [g] at m
  simp only [← e2, g]
  cases (ig && (TileSet.add (h.getSet hand) (Counter.ofIter ts)).all (fun e => decide (e.2 ≤ 4)))
  · exact ⟨rfl, p2⟩
  · exact ⟨by simpa using m.1, (prefix_reSort_new p2 (by omega)).trans m.2⟩

theorem bruteAnyRun_ok (w : Pattern) (ig : Bool) {hand : Nat} (l : List (List Tile)) {h : Store} (hs : SharedIn unitAt h) (hh : hand < h.length)
    (hr : AllReal (h.getSet hand)) (ht : ∀ ts ∈ l, ∀ t ∈ ts, RealTile t) :
    (bruteAnyRun unitAt w hand ig l h).1 = l.any (bruteTest w (h.getSet hand) ig) ∧ h <+: (bruteAnyRun unitAt w hand ig l h).2 := by
  induction l generalizing h with
  | nil => exact ⟨rfl, List.prefix_refl _⟩
  | cons ts l ih =>
    have m := bruteTestRun_ok w ig hs hh hr (ht ts (by simp))
    simp only [bruteAnyRun, List.any_cons]
    rw [← m.1]
    generalize bruteTestRun unitAt w hand ig ts h = x at m
    obtain ⟨b, h1⟩ := x
    have p : h <+: h1 := m.2
    cases b
    · have := ih (hs.mono p) (Nat.lt_of_lt_of_le hh p.length_le) (by rw [getSet_of_prefix p hh]; exact hr) (fun ts h => ht ts (by simp [h]))
      rw [getSet_of_prefix p hh] at this
      exact ⟨by simpa using this.1, p.trans this.2⟩
    · exact ⟨rfl, p⟩

theorem productRepeat_real {l : List Tile} (hl : ∀ t ∈ l, RealTile t) (n : Nat) : ∀ ts ∈ productRepeat l n, ∀ t ∈ ts, RealTile t := by
  induction n with
  | zero => intro ts hts t ht; simp only [productRepeat, List.mem_singleton] at hts; subst hts; cases ht
  | succ n ih =>
    intro ts hts t ht
    simp only [productRepeat, List.mem_flatMap, List.mem_map] at hts
    obtain ⟨a, ha, r, hr, rfl⟩ := hts
    rcases List.mem_cons.1 ht with rfl | ht
    · exact hl _ ha
    · exact ih r hr t ht

theorem bruteLoopRun_ok (w : Pattern) (ig : Bool) {hand : Nat} (fuel need : Nat) {h : Store} (hs : SharedIn unitAt h) (hh : hand < h.length)
    (hr : AllReal (h.getSet hand)) :
    (bruteLoopRun unitAt w hand ig fuel need h).1 = bruteLoop w (h.getSet hand) ig fuel need ∧ h <+: (bruteLoopRun unitAt w hand ig fuel need h).2 := by
  induction fuel generalizing need h with
  | zero => exact ⟨rfl, List.prefix_refl _⟩
  | succ fuel ih =>
    have m := bruteAnyRun_ok w ig (productRepeat ALL_TILES need) hs hh hr (productRepeat_real allTiles_real need)
    simp only [bruteLoopRun, bruteLoop, ← m.1]
    generalize bruteAnyRun unitAt w hand ig (productRepeat ALL_TILES need) h = x at m
    obtain ⟨b, h1⟩ := x
    have p : h <+: h1 := m.2
    cases b
    · have := ih (need + 1) (hs.mono p) (Nat.lt_of_lt_of_le hh p.length_le) (by rw [getSet_of_prefix p hh]; exact hr)
      rw [getSet_of_prefix p hh] at this
      exact ⟨this.1, p.trans this.2⟩
    · exact ⟨rfl, p⟩

theorem getSet_reSort {h : Store} {hand : Nat} (hh : hand < h.length) : (h.reSort hand).getSet hand = reSort (h.getSet hand) := getSet_putSet hh _

theorem getSet_sorted {h h' : Store} {hand : Nat} (hh : hand < h.length) (hp : h.reSort hand <+: h') :
    h'.getSet hand = reSort (h.getSet hand) := by
  rw [getSet_of_prefix hp (by rw [length_reSort]; exact hh), getSet_reSort hh]

theorem lt_sorted {h h' : Store} {hand : Nat} (hh : hand < h.length) (hp : h.reSort hand <+: h') : hand < h'.length := by
  have := hp.length_le
  rw [length_reSort] at this
  omega

theorem bruteBeforeRun_ok (w : Pattern) (ig : Bool) (fuel : Nat) {hand : Nat} {h : Store} (hs : Shared unitAt hand h) (hh : hand < h.length)
    (hr : AllReal (h.getSet hand)) :
    (bruteBeforeRun unitAt w ig fuel hand h).1 = bruteBefore w ig fuel (h.getSet hand) ∧
      h.reSort hand <+: (bruteBeforeRun unitAt w ig fuel hand h).2 := by
  have m := matchRun_ok w hs hh hr
  simp only [bruteBeforeRun, bruteBefore, ← m.1]
  generalize matchRun unitAt w hand h = x at m
  obtain ⟨b, h1⟩ := x
  have p : h.reSort hand <+: h1 := m.2
  cases b
  · have := bruteLoopRun_ok (unitAt := unitAt) w ig fuel 1 ((hs.put _).mono p).in (lt_sorted hh p)
      (by rw [getSet_sorted hh p]; exact AllReal_reSort hr)
    rw [getSet_sorted hh p] at this
    exact ⟨this.1, p.trans this.2⟩
  · exact ⟨rfl, p⟩

theorem bruteUsefulRunLoop_ok (w : Pattern) (ig : Bool) (fuel : Nat) (sw : Int) {hand : Nat} (l : List Tile) (hl : ∀ t ∈ l, RealTile t) {h : Store}
    (hs : SharedIn unitAt h) (hh : hand < h.length) (hr : AllReal (h.getSet hand)) :
    (bruteUsefulRunLoop unitAt w ig fuel hand sw l h).1 = bruteUsefulLoop w ig fuel (h.getSet hand) sw l ∧
      h <+: (bruteUsefulRunLoop unitAt w ig fuel hand sw l h).2 := by
  induction l generalizing h with
  | nil => exact ⟨rfl, List.prefix_refl _⟩
  | cons t l ih =>
    simp only [bruteUsefulRunLoop, bruteUsefulLoop, added_eq hh]
    cases (ig && decide (Counter.get (h.getSet hand) (view t) < 4))
    · exact ih (fun t h => hl t (by simp [h])) hs hh hr
    · simp only [if_true]
      obtain ⟨h2, e2⟩ : ∃ h2 : Store, h2 = h ++ [.set (Counter.ofIter [t])] ++ [.set (TileSet.add (h.getSet hand) (Counter.ofIter [t]))] := ⟨_, rfl⟩
      have p2 : h <+: h2 := by rw [e2]; exact (prefix_new _ _).trans (prefix_new _ _)
      have g : h2.getSet (h.length + 1) = TileSet.add (h.getSet hand) (Counter.ofIter [t]) := by
        rw [e2, show h.length + 1 = (h ++ [Obj.set (Counter.ofIter [t])]).length by simp, getSet_new]
      have l2 : h.length + 1 < h2.length := by rw [e2]; simp
      have m := bruteBeforeRun_ok w true fuel (hs.shared p2 (r := h.length + 1) (by omega)) l2
        (by rw [g]; exact AllReal_add hr (keys_ofIter_real (by simpa using hl t (by simp))))
      rw [g] at m
      simp only [← e2, ← m.1]
      generalize bruteBeforeRun unitAt w true fuel (h.length + 1) h2 = x at m
      obtain ⟨o, h3⟩ := x
      have p3 : h <+: h3 := (prefix_reSort_new p2 (by omega)).trans m.2
      cases o with
      | none => exact ⟨rfl, p3⟩
      | some n =>
        have := ih (fun t h => hl t (by simp [h])) (hs.mono p3) (Nat.lt_of_lt_of_le hh p3.length_le) (by rw [getSet_of_prefix p3 hh]; exact hr)
        rw [getSet_of_prefix p3 hh] at this
        simp only [← this.1]
        generalize bruteUsefulRunLoop unitAt w ig fuel hand sw l h3 = x at this
        obtain ⟨o, h4⟩ := x
        cases o with
        | none => exact ⟨rfl, p3.trans this.2⟩
        | some r => exact ⟨rfl, p3.trans this.2⟩

theorem bruteUsefulRun_ok (w : Pattern) (ig : Bool) (fuel : Nat) {hand : Nat} {h : Store} (hs : Shared unitAt hand h) (hh : hand < h.length)
    (hr : AllReal (h.getSet hand)) :
    (bruteUsefulRun unitAt w ig fuel hand h).1 = bruteUseful w ig fuel (h.getSet hand) ∧
      h.reSort hand <+: (bruteUsefulRun unitAt w ig fuel hand h).2 := by
  have m := bruteBeforeRun_ok w true fuel hs hh hr
  simp only [bruteUsefulRun, bruteUseful, ← m.1]
  generalize bruteBeforeRun unitAt w true fuel hand h = x at m
  obtain ⟨o, h1⟩ := x
  have p : h.reSort hand <+: h1 := m.2
  cases o with
  | none => exact ⟨rfl, p⟩
  | some sw =>
    have := bruteUsefulRunLoop_ok (unitAt := unitAt) w ig fuel sw ALL_TILES allTiles_real ((hs.put _).mono p).in (lt_sorted hh p)
      (by rw [getSet_sorted hh p]; exact AllReal_reSort hr)
    rw [getSet_sorted hh p] at this
    exact ⟨this.1, p.trans this.2⟩

/-! ### From sorted objects to the specification -/

theorem _root_.Verif.Spec.OnlySorted.of_prefix {hand : Nat} {h h' : Store} {s : TileSet} (hs : h[hand]? = some (.set s)) (hp : h.reSort hand <+: h') :
    OnlySorted hand h h' := by
  have hh : hand < h.length := by
    by_contra hn
    rw [List.getElem?_eq_none (by omega)] at hs
    cases hs
  refine ⟨fun r hr hne => ?_, s, reSort s, hs, ?_, reSort_perm s⟩
  · rw [getElem_of_prefix hp (by rw [length_reSort]; exact hr)]
    unfold Store.reSort Store.putSet
    rw [List.getElem?_set_ne (Ne.symm hne)]
  · rw [getElem_of_prefix hp (by rw [length_reSort]; exact hh)]
    have : h.getSet hand = s := by unfold Store.getSet; rw [hs]
    unfold Store.reSort Store.putSet
    rw [this]
    simp [hh]

theorem _root_.Verif.Spec.OnlySorted.trans {hand : Nat} {h h1 h2 : Store} (a : OnlySorted hand h h1) (b : OnlySorted hand h1 h2) (hl : h.length ≤ h1.length) :
    OnlySorted hand h h2 := by
  obtain ⟨a1, s, s', ha, ha', hp⟩ := a
  obtain ⟨b1, t, t', hb, hb', hq⟩ := b
  rw [ha'] at hb
  cases hb
  exact ⟨fun r hr hne => (b1 r (by omega) hne).trans (a1 r hr hne), s, t', ha, hb', hq.trans hp⟩

theorem bruteWaitingUsefulRun_ok (w : Pattern) (ig : Bool) (fuel : Nat) {hand : Nat} {h : Store} {s : TileSet} (hs : Shared unitAt hand h)
    (hh : h[hand]? = some (.set s)) (hr : AllReal s) :
    (bruteWaitingUsefulRun unitAt w ig fuel hand h).1 = bruteWaitingUseful w ig fuel s ∧
      OnlySorted hand h (bruteWaitingUsefulRun unitAt w ig fuel hand h).2 := by
  have hl : hand < h.length := by
    by_contra hn
    rw [List.getElem?_eq_none (by omega)] at hh
    cases hh
  have e : h.getSet hand = s := by unfold Store.getSet; rw [hh]
  have m := bruteBeforeRun_ok w ig fuel hs hl (by rw [e]; exact hr)
  rw [e] at m
  simp only [bruteWaitingUsefulRun, bruteWaitingUseful, ← m.1]
  generalize bruteBeforeRun unitAt w ig fuel hand h = x at m
  obtain ⟨o, h1⟩ := x
  have p : h.reSort hand <+: h1 := m.2
  have o1 := OnlySorted.of_prefix hh p
  cases o with
  | none => exact ⟨rfl, o1⟩
  | some n =>
    have g1 : h1.getSet hand = reSort s := by rw [getSet_sorted hl p, e]
    have m2 := bruteUsefulRun_ok w ig fuel ((hs.put _).mono p) (lt_sorted hl p) (by rw [g1]; exact AllReal_reSort hr)
    rw [g1] at m2
    simp only [← m2.1]
    obtain ⟨s', hs'⟩ : ∃ s', h1[hand]? = some (.set s') := by obtain ⟨_, _, s', _, hs', _⟩ := o1; exact ⟨s', hs'⟩
    have o2 := o1.trans (OnlySorted.of_prefix hs' m2.2) (by have := p.length_le; rw [length_reSort] at this; exact this)
    generalize bruteUsefulRun unitAt w ig fuel hand h1 = x at m2 o2
    obtain ⟨o, h2⟩ := x
    cases o with
    | none => exact ⟨rfl, o2⟩
    | some us => exact ⟨rfl, o2⟩

end Verif.Proofs
