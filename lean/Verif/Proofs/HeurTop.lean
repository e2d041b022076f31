import Verif.Proofs.Heuristic
import Mathlib.Data.List.Nodup

namespace Verif.Proofs
open Verif.Py Verif.Model Verif.Spec

/-! ### the initial search lists -/

theorem tile_strictTotal : StrictTotal (fun _ : Tile => True) Tile.eq Tile.lt := by
  refine ⟨?_, ?_, ?_, ?_, ?_, ?_⟩
  · intro a _; simp [Tile.eq]
  · intro a b _ _ h; simp only [Tile.eq, decide_eq_true_eq] at *; exact h.symm
  · intro a b c _ _ _ h1 h2; simp only [Tile.eq, decide_eq_true_eq] at *; rw [h1, h2]
  · intro a b _ _ h
    simp only [Tile.eq, decide_eq_true_eq] at h
    simp [Tile.lt, h, Kind.lt_irrefl]
  · intro a b c _ _ _ h1 h2
    simp only [Tile.lt, decide_eq_true_eq] at *
    exact Kind.lt_trans h1 h2
  · intro a b _ _
    simp only [Tile.lt, Tile.eq, decide_eq_true_eq]
    exact Kind.lt_tri _ _

theorem mem_borrowedCountMap {w : Pattern} {hand : TileSet} {i : Int} {t : Tile} :
    t ∈ borrowedCountMap w hand i ↔
      t ∈ ALL_TILES ∧ ∃ e ∈ w.nextStates t, needToBorrow hand e.1 = i := by
  unfold borrowedCountMap initUnits
  simp only [List.mem_map, List.mem_filter, List.mem_flatMap, decide_eq_true_eq]
  constructor
  · rintro ⟨u, ⟨⟨t', ht', e, he, rfl⟩, hi⟩, rfl⟩
    exact ⟨ht', e, he, hi⟩
  · rintro ⟨ht, e, he, hi⟩
    exact ⟨(needToBorrow hand e.1, t), ⟨⟨t, ht, e, he, rfl⟩, hi⟩, rfl⟩

theorem mem_initBorrows_real {w : Pattern} {hand : TileSet} {k : Nat} {t : Tile}
    (h : t ∈ initBorrows w hand k) : t ∈ ALL_TILES := by
  unfold initBorrows at h
  have h1 := (pySorted_perm _).mem_iff.1 h
  rcases mem_setUpdate_tile h1 with h2 | h2
  · simp at h2
  · rw [List.mem_flatMap] at h2
    obtain ⟨i, _, hi⟩ := h2
    exact (mem_borrowedCountMap.1 hi).1

theorem start_initBorrows (w : Pattern) (hand : TileSet) (k : Nat) : Start (initBorrows w hand k) := by
  refine ⟨fun t ht => allTiles_real t (mem_initBorrows_real ht), ?_⟩
  unfold initBorrows
  generalize hs : (((List.range (k + 1)).reverse).flatMap
      (fun i : Nat => borrowedCountMap w hand i)) = l
  have h1 := pySorted_sorted tile_strictTotal (setUpdate [] l) (fun _ _ => trivial)
  have h2 : (kindsOf (pySorted Tile.lt (setUpdate [] l))).Nodup :=
    (((pySorted_perm (lt := Tile.lt) (setUpdate [] l)).map Tile.view).nodup_iff).2
      (nodup_setUpdate (by simp [kindsOf]))
  unfold kindsOf at h2
  rw [List.Nodup, List.pairwise_map] at h2
  refine (h1.and h2).imp ?_
  rintro a b ⟨h3, h4⟩
  simp only [Tile.lt, decide_eq_false_iff_not] at h3
  rcases Kind.lt_tri a.view b.view with h | h | h
  · exact h
  · exact absurd h h4
  · exact absurd h h3

theorem found_initBorrows {w : Pattern} {hand : TileSet} (hh : HandOK hand) {g : Group} (hg : g.Proper)
    {w' : Pattern} (hst : step w g = some w') {k : Nat} (hk : marg (Counter.get hand) g ≤ k) :
    ∃ t ∈ initBorrows w hand k, t.view = g.first := by
  have hb0 : borrow (Counter.get hand) = 0 := by
    unfold borrow
    have : sumK (fun k => max 0 (-(Counter.get hand k))) = sumK (fun _ => 0) :=
      sumK_congr (fun k _ => by have := hh.get_nonneg k; omega)
    rw [this, sumK_zero]
  have hm : needToBorrow hand (unitOf g) = marg (Counter.get hand) g := by
    unfold needToBorrow
    rw [(hh.hd.subUnit hg).borrowed]
    unfold marg
    rw [hb0]
    have : borrow (Counter.get (Counter.subtract hand (unitOf g))) = borrow (hsub (Counter.get hand) g) := by
      unfold borrow hsub
      exact sumK_congr (fun k _ => by rw [get_subUnit])
    omega
  obtain ⟨t, ht, hv⟩ := mem_allTiles hg.first_valid
  have h0 := marg_nonneg (Counter.get hand) g
  have hmem : t ∈ ((List.range (k + 1)).reverse).flatMap (fun i : Nat => borrowedCountMap w hand i) := by
    rw [List.mem_flatMap]
    refine ⟨(marg (Counter.get hand) g).toNat, ?_, ?_⟩
    · rw [List.mem_reverse, List.mem_range]; omega
    · rw [mem_borrowedCountMap]
      refine ⟨ht, (unitOf g, w'), (mem_nextStates (allTiles_real t ht)).2 ⟨g, hg, hv.symm, hst, rfl⟩, ?_⟩
      rw [hm]; omega
  have h1 : t.view ∈ kindsOf (setUpdate [] (((List.range (k + 1)).reverse).flatMap
      (fun i : Nat => borrowedCountMap w hand i))) := by
    rw [mem_setUpdate]
    exact Or.inr (List.mem_map.2 ⟨t, hmem, rfl⟩)
  obtain ⟨t', ht', hv'⟩ := List.mem_map.1 h1
  exact ⟨t', (pySorted_perm _).mem_iff.2 ht', by rw [hv', hv]⟩

/-! ### the search started at the top -/

/-- the search as started by both callers -/
def hTop (w : Pattern) (ig : Bool) (hand : TileSet) (pr m : Int) : List HRes × Int :=
  hSel ig (borrowedLimit hand) pr (w.needUnits + 1) 0 (initBorrows w hand) (reSort hand) w m

theorem borrow_nonneg_hand {h : Kind → Int} (hh : ∀ k, 0 ≤ h k) : borrow h = 0 := by
  unfold borrow
  have : sumK (fun k => max 0 (-(h k))) = sumK (fun _ => 0) :=
    sumK_congr (fun k _ => by have := hh k; omega)
  rw [this, sumK_zero]

theorem hTop_post {w : Pattern} {ig : Bool} {hand : TileSet} (hh : HandOK hand) {pr m : Int}
    (hpr : 0 ≤ pr) (hm : 0 ≤ m) : Post pr m (hTop w ig hand pr m).1 (hTop w ig hand pr m).2 := by
  refine hSel_post hpr _ _ _ _ _ _ (fun k => (start_initBorrows w hand k).real) hh.hd.reSort ?_
  intro _
  rw [borrow_nonneg_hand]
  · exact hm
  · intro k; rw [get_reSort hh.1]; exact hh.get_nonneg k

theorem hTop_sound {w : Pattern} {ig : Bool} {hand : TileSet} (hh : HandOK hand) {pr m : Int}
    {r : HRes} (hr : r ∈ (hTop w ig hand pr m).1) :
    ∃ D, Legal w D ∧ Feasible ig D ∧ r.units = D.map unitOf ∧ r.count = deficit D (content hand) ∧
      HD r.borrowed ∧ AllPos r.borrowed ∧
      ∀ k, Counter.get r.borrowed k = Max.max 0 (need D k - content hand k) := by
  obtain ⟨D, hD⟩ := hSel_sound _ _ _ _ _ _ _ (fun k => (start_initBorrows w hand k).real) hh.hd.reSort hr
  have hg := fun k => get_reSort hh.1 k
  refine ⟨D, hD.legal, ?_, hD.units, ?_, hD.hd, hD.pos, ?_⟩
  · intro hig k
    by_cases h0 : need D k = 0
    · omega
    · have := hD.limit hig k (Or.inr h0)
      obtain ⟨g, hg', hc⟩ := exists_of_need_ne h0
      rw [get_borrowedLimit ((hD.legal.proper g hg').valid_of_count hc), hg] at this
      omega
  · have := hD.count
    rwa [deficit_congr (h' := content hand) (fun k _ => hg k)] at this
  · intro k; rw [hD.borrowed k, hg]; rfl

theorem hTop_complete {w : Pattern} {ig : Bool} {hand : TileSet} (hh : HandOK hand) {pr : Int}
    (hpr : 0 ≤ pr) (m : Int) {D : List Group} (hD : Legal w D) (hf : Feasible ig D) :
    Found (hTop w ig hand pr m).1 D ∨ (hTop w ig hand pr m).2 < deficit D (content hand) := by
  have hg := fun k => get_reSort hh.1 k
  have h := hSel_complete (ig := ig) (limits := borrowedLimit hand) hpr (w.needUnits + 1) 0
    (initBorrows w hand) (reSort hand) w m D (by omega) (start_initBorrows w hand) hh.hd.reSort ?_
  · rwa [deficit_congr (h' := content hand) (fun k _ => hg k)] at h
  · refine ⟨hD, fun g _ => by have := marg_nonneg (Counter.get (reSort hand)) g; omega, ?_, ?_⟩
    · intro g hg' k hk
      obtain ⟨w', hst, _⟩ := legal_take hD hg'
      refine found_initBorrows hh (hD.proper g hg') hst ?_
      rwa [marg_congr (h' := Counter.get hand) g (fun k _ => (hg k).symm)] at hk
    · intro hig k hk
      rw [hg]
      refine (feasible_limits hh.hd hD).1 hf hig k ?_
      rcases hk with hk | hk
      · left
        exact ((reSort_perm hand).map (fun e => Keyed.view e.1)).mem_iff.1 hk
      · exact Or.inr hk

theorem hTop_found_count {w : Pattern} {ig : Bool} {hand : TileSet} (hh : HandOK hand) {pr m : Int}
    {D : List Group} (hf : Found (hTop w ig hand pr m).1 D) :
    ∃ r ∈ (hTop w ig hand pr m).1, r.count = deficit D (content hand) ∧
      (∃ D' : List Group, D'.Perm D ∧ r.units = D'.map unitOf) ∧ HD r.borrowed ∧ AllPos r.borrowed ∧
      ∀ k, Counter.get r.borrowed k = Max.max 0 (need D k - content hand k) := by
  obtain ⟨r, hr, D', hp, hu⟩ := hf
  obtain ⟨D'', h1, h2, h3, h4, h5, h6, h7⟩ := hTop_sound hh hr
  have : D'' = D' := unitOf_inj_map (by rw [← h3, hu])
  subst this
  exact ⟨r, hr, by rw [h4, deficit_perm hp], ⟨D'', hp, hu⟩, h5, h6, fun k => by rw [h7 k, need_perm hp]⟩

/-! ### before_waiting_step -/

theorem foldl_min_spec (l : List Int) (x : Int) :
    (l.foldl (fun m y => if y < m then y else m) x) ∈ x :: l ∧
    ∀ y ∈ x :: l, l.foldl (fun m y => if y < m then y else m) x ≤ y := by
  induction l generalizing x with
  | nil => simp
  | cons a l ih =>
    simp only [List.foldl_cons]
    obtain ⟨h1, h2⟩ := ih (if a < x then a else x)
    refine ⟨?_, ?_⟩
    · rcases List.mem_cons.1 h1 with h | h
      · rw [h]; split <;> simp
      · simp [h]
    · intro y hy
      have h3 := h2 (if a < x then a else x) (by simp)
      have h4 : (if a < x then a else x) ≤ a ∧ (if a < x then a else x) ≤ x := by split <;> omega
      generalize (if a < x then a else x) = z at *
      rcases List.mem_cons.1 hy with h | h
      · subst h
        omega
      · rcases List.mem_cons.1 h with h | h
        · subst h; omega
        · exact h2 y (by simp [h])

theorem pyMin_nil : pyMin [] = .error .valueError := rfl

theorem pyMin_eq {l : List Int} {m : Int} (hm : m ∈ l) (hle : ∀ x ∈ l, m ≤ x) : pyMin l = .ok m := by
  cases l with
  | nil => simp at hm
  | cons x l =>
    obtain ⟨h1, h2⟩ := foldl_min_spec l x
    have h3 := h2 m hm
    have h4 := hle _ h1
    simp only [pyMin]
    rw [Int.le_antisymm h3 h4]

theorem heurBefore_eq (s : Int) (w : Pattern) (ig : Bool) (hand : TileSet) :
    heurBefore s w ig hand =
      ((pyMin ((hTop w ig hand 1 (Counter.total hand)).1.map HRes.count)).map (fun m => m - 1),
        (hTop w ig hand 1 (Counter.total hand)).2) := rfl

theorem heurCombos_eq (w : Pattern) (ig : Bool) (hand : TileSet) (n : Int) :
    heurCombos w ig hand n = hTop w ig hand 0 (n + 1) := rfl

theorem total_nonneg {hand : TileSet} (hh : HandOK hand) : 0 ≤ Counter.total hand := by
  rw [total_eq_sumK hh.1 hh.2.1]; exact sumK_nonneg (fun k _ => hh.get_nonneg k)

theorem heurBefore_cases (s : Int) {w : Pattern} {ig : Bool} {hand : TileSet} (hh : HandOK hand) :
    ((heurBefore s w ig hand).1 = .error .valueError ∧
      ∀ D, Legal w D → Feasible ig D → Counter.total hand < deficit D (content hand)) ∨
    (∃ n, (heurBefore s w ig hand).1 = .ok n ∧ IsStep ig w (content hand) n ∧
      n + 1 ≤ Counter.total hand) := by
  rw [heurBefore_eq]
  have hpost := hTop_post (w := w) (ig := ig) hh (pr := 1) (by omega) (total_nonneg hh)
  have hcomp := fun D h1 h2 => hTop_complete (w := w) (ig := ig) hh (pr := 1) (by omega) (Counter.total hand)
    (D := D) h1 h2
  have hsound := fun r => hTop_sound (w := w) (ig := ig) hh (pr := 1) (m := Counter.total hand) (r := r)
  have hfc := fun D => hTop_found_count (w := w) (ig := ig) hh (pr := 1) (m := Counter.total hand) (D := D)
  generalize hTop w ig hand 1 (Counter.total hand) = R at *
  rcases hpost.last with ⟨h1, h2⟩ | ⟨r, hr, hc⟩
  · left
    refine ⟨by rw [h1]; rfl, fun D hD hf => ?_⟩
    rcases hcomp D hD hf with h | h
    · obtain ⟨r, hr, _⟩ := h
      rw [h1] at hr; simp at hr
    · omega
  · right
    have hmin : pyMin (R.1.map HRes.count) = .ok r.count := by
      refine pyMin_eq (List.mem_map.2 ⟨r, hr, rfl⟩) ?_
      intro x hx
      obtain ⟨r', hr', rfl⟩ := List.mem_map.1 hx
      have := hpost.bounds r' hr'
      omega
    refine ⟨r.count - 1, by rw [hmin]; rfl, ⟨?_, ?_⟩, ?_⟩
    · obtain ⟨D, h1, h2, _, h4, _⟩ := hsound r hr
      exact ⟨D, h1, h2, by omega⟩
    · intro D h1 h2
      rcases hcomp D h1 h2 with h | h
      · obtain ⟨r', hr', hc', _⟩ := hfc D h
        have := hpost.bounds r' hr'
        omega
      · omega
    · have := hpost.bounds r hr
      omega

theorem heurBefore_spec (s : Int) {w : Pattern} {ig : Bool} {hand : TileSet} (hh : HandOK hand) (n : Int) :
    (heurBefore s w ig hand).1 = .ok n ↔ IsStep ig w (content hand) n ∧ n + 1 ≤ Counter.total hand := by
  rcases heurBefore_cases s (w := w) (ig := ig) hh with ⟨h1, h2⟩ | ⟨m, h1, h2, h3⟩
  · rw [h1]
    constructor
    · intro h; cases h
    · rintro ⟨⟨⟨D, a, b, c⟩, _⟩, h⟩
      have := h2 D a b
      omega
  · rw [h1]
    constructor
    · intro h; cases h; exact ⟨h2, h3⟩
    · rintro ⟨h, _⟩
      rw [h.unique h2]

theorem heurBefore_error (s : Int) {w : Pattern} {ig : Bool} {hand : TileSet} (hh : HandOK hand) (e : PyErr) :
    (heurBefore s w ig hand).1 = .error e ↔
      e = .valueError ∧ ∀ D, Legal w D → Feasible ig D → Counter.total hand < deficit D (content hand) := by
  rcases heurBefore_cases s (w := w) (ig := ig) hh with ⟨h1, h2⟩ | ⟨m, h1, h2, h3⟩
  · rw [h1]
    constructor
    · intro h; cases h; exact ⟨rfl, h2⟩
    · rintro ⟨rfl, _⟩; rfl
  · rw [h1]
    constructor
    · intro h; cases h
    · rintro ⟨_, h⟩
      obtain ⟨⟨D, a, b, c⟩, _⟩ := h2
      have := h D a b
      omega

/-! ### all best combinations -/

theorem heurCombos_sound {w : Pattern} {hand : TileSet} (hh : HandOK hand) {n : Int}
    (hn : IsStep true w (content hand) n) {r : HRes} (hr : r ∈ (heurCombos w true hand n).1) :
    ∃ D, Legal w D ∧ Feasible true D ∧ r.units = D.map unitOf ∧ deficit D (content hand) = n + 1 ∧
      HD r.borrowed ∧ AllPos r.borrowed ∧
      ∀ k, Counter.get r.borrowed k = Max.max 0 (need D k - content hand k) := by
  rw [heurCombos_eq] at hr
  obtain ⟨D, h1, h2, h3, h4, h5⟩ := hTop_sound hh hr
  have hge := hn.ge
  have hp := hTop_post (w := w) (ig := true) hh (pr := 0) (m := n + 1) (by omega) (by omega)
  have := hp.bounds r hr
  have := hn.2 D h1 h2
  exact ⟨D, h1, h2, h3, by omega, h5⟩

theorem heurCombos_complete {w : Pattern} {hand : TileSet} (hh : HandOK hand) {n : Int}
    (hn : IsStep true w (content hand) n) {D : List Group} (hD : Legal w D) (hf : Feasible true D)
    (hd : deficit D (content hand) = n + 1) :
    ∃ r ∈ (heurCombos w true hand n).1, (∃ D' : List Group, D'.Perm D ∧ r.units = D'.map unitOf) ∧
      HD r.borrowed ∧ AllPos r.borrowed ∧
      ∀ k, Counter.get r.borrowed k = Max.max 0 (need D k - content hand k) := by
  have hge := hn.ge
  have hp := hTop_post (w := w) (ig := true) hh (pr := 0) (m := n + 1) (by omega) (by omega)
  rcases hTop_complete (w := w) (ig := true) hh (pr := 0) (by omega) (n + 1) hD hf with h | h
  · obtain ⟨r, hr, _, h2⟩ := hTop_found_count hh h
    exact ⟨r, hr, h2⟩
  · exfalso
    rcases hp.last with ⟨_, h2⟩ | ⟨r, hr, hc⟩
    · omega
    · obtain ⟨D', h1, h2, _, h4, _⟩ := hTop_sound hh hr
      have := hn.2 D' h1 h2
      omega

theorem HandOK.reSort' {hand : TileSet} (hh : HandOK hand) : HandOK (reSort hand) :=
  ⟨WF_reSort hh.1, fun e he => hh.2.1 e ((reSort_perm hand).mem_iff.1 he),
    fun e he => hh.2.2 e ((reSort_perm hand).mem_iff.1 he)⟩

theorem content_reSort' {hand : TileSet} (hh : HandOK hand) : content (reSort hand) = content hand := by
  funext k; exact get_reSort hh.1 k

/-- membership in the useful set of the heuristic search -/
theorem heurUseful_mem {w : Pattern} {hand : TileSet} (hh : HandOK hand) {n : Int}
    (hn : IsStep true w (content hand) n) {k : Kind} :
    k ∈ kindsOf (setUpdate [] ((heurCombos w true hand n).1.flatMap
      (fun r => r.borrowed.map (fun e : Tile × Int => e.1)))) ↔
    ∃ D, Legal w D ∧ Feasible true D ∧ deficit D (content hand) = n + 1 ∧ content hand k < need D k := by
  rw [mem_setUpdate]
  simp only [kindsOf, List.map_nil, List.not_mem_nil, false_or]
  constructor
  · intro h
    obtain ⟨t, ht, hv⟩ := List.mem_map.1 h
    obtain ⟨r, hr, hm⟩ := List.mem_flatMap.1 ht
    obtain ⟨D, h1, h2, _, h4, h5, h6, h7⟩ := heurCombos_sound hh hn hr
    have : k ∈ kindsOf (r.borrowed.map (fun e => e.1)) := List.mem_map.2 ⟨t, hm, hv⟩
    rw [mem_borrowed_keys h5 h6, h7] at this
    exact ⟨D, h1, h2, h4, by omega⟩
  · rintro ⟨D, h1, h2, h3, h4⟩
    obtain ⟨r, hr, _, h5, h6, h7⟩ := heurCombos_complete hh hn h1 h2 h3
    have : k ∈ kindsOf (r.borrowed.map (fun e => e.1)) := by
      rw [mem_borrowed_keys h5 h6, h7]; omega
    obtain ⟨t, ht, hv⟩ := List.mem_map.1 this
    exact List.mem_map.2 ⟨t, List.mem_flatMap.2 ⟨r, hr, ht⟩, hv⟩

theorem heurWaitingUseful_eq {s : Int} {w : Pattern} {hand : TileSet} (hh : HandOK hand)
    {n : Int} {u : List Tile} (h : heurWaitingUseful s w true hand = .ok (n, u)) :
    IsStep true w (content hand) n ∧ n + 1 ≤ Counter.total hand ∧ (kindsOf u).Nodup ∧
    (∀ t ∈ u, RealTile t) ∧
    ∀ k, k ∈ kindsOf u ↔
      ∃ D, Legal w D ∧ Feasible true D ∧ deficit D (content hand) = n + 1 ∧ content hand k < need D k := by
  unfold heurWaitingUseful at h
  rcases heurBefore_cases s (w := w) (ig := true) hh with ⟨h1, h2⟩ | ⟨m, h1, h2, h3⟩
  · rw [h1] at h; cases h
  · rw [h1] at h
    simp only [Except.map, Except.ok.injEq, Prod.mk.injEq] at h
    obtain ⟨rfl, rfl⟩ := h
    have hn : IsStep true w (content (reSort hand)) m := by rw [content_reSort' hh]; exact h2
    refine ⟨h2, h3, nodup_setUpdate (by simp [kindsOf]), ?_, ?_⟩
    · intro t ht
      rcases mem_setUpdate_tile ht with h | h
      · simp at h
      · obtain ⟨r, hr, hm⟩ := List.mem_flatMap.1 h
        obtain ⟨D, _, _, _, _, h5, _⟩ := heurCombos_sound (HandOK.reSort' hh) hn hr
        obtain ⟨e, he, rfl⟩ := List.mem_map.1 hm
        exact h5.real e he
    · intro k
      rw [heurUseful_mem (HandOK.reSort' hh) hn, content_reSort' hh]

theorem heurWaitingUseful_ok {s : Int} {w : Pattern} {hand : TileSet} (hh : HandOK hand)
    {n : Int} (h : IsStep true w (content hand) n) (hle : n + 1 ≤ Counter.total hand) :
    ∃ u, heurWaitingUseful s w true hand = .ok (n, u) := by
  unfold heurWaitingUseful
  rw [(heurBefore_spec s hh n).2 ⟨h, hle⟩]
  exact ⟨_, rfl⟩

/-! ### batch -/

/-- value recorded for a kind -/
def lookK (acc : List (Tile × List Tile)) (k : Kind) : Option (List Tile) :=
  (acc.find? (fun e => decide (e.1.view = k))).map (fun e => e.2)

/-- the accumulated dictionary: no two equal keys -/
def DictOK (acc : List (Tile × List Tile)) : Prop := (acc.map (fun e => e.1.view)).Nodup

theorem keys_dropUpdate (acc : List (Tile × List Tile)) (t : Tile) (bs : List Tile) (k : Kind) :
    k ∈ (dropUpdate acc t bs).map (fun e => e.1.view) ↔ k ∈ acc.map (fun e => e.1.view) ∨ k = t.view := by
  induction acc with
  | nil => simp [dropUpdate]
  | cons a acc ih =>
    obtain ⟨a, s⟩ := a
    simp only [dropUpdate]
    split
    · rename_i h
      simp only [Tile.eq, decide_eq_true_eq] at h
      simp only [List.map_cons, List.mem_cons, h]
      grind
    · simp only [List.map_cons, List.mem_cons, ih]
      grind

theorem dictOK_dropUpdate {acc : List (Tile × List Tile)} (h : DictOK acc) (t : Tile) (bs : List Tile) :
    DictOK (dropUpdate acc t bs) := by
  unfold DictOK at *
  induction acc with
  | nil => simp [dropUpdate]
  | cons a acc ih =>
    obtain ⟨a, s⟩ := a
    simp only [dropUpdate]
    simp only [List.map_cons, List.nodup_cons] at h
    split
    · simpa using h
    · rename_i h2
      simp only [Tile.eq, decide_eq_true_eq] at h2
      simp only [List.map_cons, List.nodup_cons]
      refine ⟨?_, ih h.2⟩
      rw [keys_dropUpdate]
      grind

/-- relation: kind `u` is recorded for discard kind `t` -/
def RecK (acc : List (Tile × List Tile)) (t u : Kind) : Prop :=
  ∃ e ∈ acc, e.1.view = t ∧ u ∈ kindsOf e.2

theorem rec_dropUpdate (acc : List (Tile × List Tile)) (t : Tile) (bs : List Tile) (a b : Kind)
    (hok : DictOK acc) :
    RecK (dropUpdate acc t bs) a b ↔ RecK acc a b ∨ (a = t.view ∧ b ∈ kindsOf bs) := by
  unfold DictOK at hok
  induction acc with
  | nil =>
    simp only [dropUpdate, RecK, List.mem_singleton, exists_eq_left, mem_setUpdate]
    simp [kindsOf, eq_comm]
  | cons x acc ih =>
    obtain ⟨x, s⟩ := x
    simp only [dropUpdate]
    simp only [List.map_cons, List.nodup_cons] at hok
    have ih' := ih hok.2
    unfold RecK at *
    split
    · rename_i h
      simp only [Tile.eq, decide_eq_true_eq] at h
      simp only [List.mem_cons, exists_eq_or_imp, mem_setUpdate, h]
      grind
    · simp only [List.mem_cons, exists_eq_or_imp, ih']
      grind

theorem set_dropUpdate {acc : List (Tile × List Tile)} (h : ∀ e ∈ acc, (kindsOf e.2).Nodup ∧ RealTile e.1 ∧ ∀ t ∈ e.2, RealTile t)
    {t : Tile} (ht : RealTile t) {bs : List Tile} (hb : ∀ t ∈ bs, RealTile t) :
    ∀ e ∈ dropUpdate acc t bs, (kindsOf e.2).Nodup ∧ RealTile e.1 ∧ ∀ t ∈ e.2, RealTile t := by
  induction acc with
  | nil =>
    intro e he
    simp only [dropUpdate, List.mem_singleton] at he
    subst he
    refine ⟨nodup_setUpdate (by simp [kindsOf]), ht, fun x hx => ?_⟩
    rcases mem_setUpdate_tile hx with h | h
    · simp at h
    · exact hb x h
  | cons a acc ih =>
    obtain ⟨a, s⟩ := a
    intro e he
    simp only [dropUpdate] at he
    have ha := h (a, s) (by simp)
    split at he
    · rcases List.mem_cons.1 he with rfl | he
      · refine ⟨nodup_setUpdate ha.1, ha.2.1, fun x hx => ?_⟩
        rcases mem_setUpdate_tile hx with h | h
        · exact ha.2.2 x h
        · exact hb x h
      · exact h e (by simp [he])
    · rcases List.mem_cons.1 he with rfl | he
      · exact ha
      · exact ih (fun e he => h e (by simp [he])) e he

/-- good accumulated dictionaries -/
structure AccOK (acc : List (Tile × List Tile)) : Prop where
  dict : DictOK acc
  sets : ∀ e ∈ acc, (kindsOf e.2).Nodup ∧ RealTile e.1 ∧ ∀ t ∈ e.2, RealTile t

theorem foldl_dropUpdate {c : TileSet} (hc : AllReal c) {bs : List Tile} (hb : ∀ t ∈ bs, RealTile t)
    (acc : List (Tile × List Tile)) (h : AccOK acc) :
    AccOK (c.foldl (fun acc e => dropUpdate acc e.1 bs) acc) ∧
    (∀ k, k ∈ (c.foldl (fun acc e => dropUpdate acc e.1 bs) acc).map (fun e => e.1.view) ↔
      k ∈ acc.map (fun e => e.1.view) ∨ k ∈ Counter.keys c) ∧
    (∀ a b, RecK (c.foldl (fun acc e => dropUpdate acc e.1 bs) acc) a b ↔
      RecK acc a b ∨ (a ∈ Counter.keys c ∧ b ∈ kindsOf bs)) := by
  induction c generalizing acc with
  | nil => simp [h]
  | cons x c ih =>
    simp only [List.foldl_cons]
    have h1 : AccOK (dropUpdate acc x.1 bs) :=
      ⟨dictOK_dropUpdate h.dict _ _, set_dropUpdate h.sets (hc x (by simp)) hb⟩
    obtain ⟨a1, a2, a3⟩ := ih (fun e he => hc e (by simp [he])) _ h1
    refine ⟨a1, fun k => ?_, fun a b => ?_⟩
    · rw [a2, keys_dropUpdate, Counter.keys_cons, List.mem_cons]
      show _ ↔ _ ∨ k = x.1.view ∨ _
      grind
    · rw [a3, rec_dropUpdate _ _ _ _ _ h.dict, Counter.keys_cons, List.mem_cons]
      show _ ↔ _ ∨ ((a = x.1.view ∨ _) ∧ _)
      grind

theorem foldl_add_units (D : List Group) (hp : ∀ g ∈ D, g.Proper) (c : TileSet) (hc : HandOK c) :
    HandOK ((D.map unitOf).foldl TileSet.add c) ∧
    ∀ k, Counter.get ((D.map unitOf).foldl TileSet.add c) k = Counter.get c k + need D k := by
  induction D generalizing c with
  | nil => simp [hc]
  | cons g D ih =>
    simp only [List.map_cons, List.foldl_cons]
    have hu : HandOK (unitOf g) := HandOK_of (WF_unitOf g) (AllReal_unitOf (hp g (by simp)))
      (fun k => by rw [get_unitOf]; exact Group.count_nonneg g k)
    obtain ⟨h1, h2⟩ := ih (fun g hg => hp g (by simp [hg])) _ (HandOK_add hc hu)
    refine ⟨h1, fun k => ?_⟩
    rw [h2, get_add hc.1 hu.1, need_cons, get_unitOf]
    have := hc.get_nonneg k
    have := Group.count_nonneg g k
    omega

theorem keys_sub_mem {c d : TileSet} (hc : Counter.WF c) (hd : Counter.WF d) (k : Kind) :
    k ∈ Counter.keys (TileSet.sub c d) ↔ Counter.get d k < Counter.get c k := by
  unfold TileSet.sub Counter.isub
  rw [Counter.keys_keepPositive_mem (Counter.WF_subtract hc d), Counter.get_subtract hd]
  omega

theorem batchStep_spec {hand : TileSet} (hh : HandOK hand) {r : HRes} {D : List Group} {w : Pattern}
    (hD : Legal w D) (hu : r.units = D.map unitOf) (hb : HD r.borrowed) (hpos : AllPos r.borrowed)
    (hg : ∀ k, Counter.get r.borrowed k = Max.max 0 (need D k - content hand k))
    (acc : List (Tile × List Tile)) (h : AccOK acc) :
    AccOK (batchStep hand acc r) ∧
    (∀ k, k ∈ (batchStep hand acc r).map (fun e => e.1.view) ↔
      k ∈ acc.map (fun e => e.1.view) ∨ need D k < content hand k) ∧
    (∀ a b, RecK (batchStep hand acc r) a b ↔
      RecK acc a b ∨ (need D a < content hand a ∧ content hand b < need D b)) := by
  unfold batchStep
  obtain ⟨f1, f2⟩ := foldl_add_units D hD.proper [] (by simp [HandOK, Counter.WF_nil])
  rw [hu]
  have hs : AllReal (TileSet.sub hand ((D.map unitOf).foldl TileSet.add [])) :=
    (HandOK_sub hh f1).2.1
  obtain ⟨a1, a2, a3⟩ := foldl_dropUpdate hs (bs := r.borrowed.map (fun e => e.1))
    (by intro t ht; obtain ⟨e, he, rfl⟩ := List.mem_map.1 ht; exact hb.real e he) acc h
  refine ⟨a1, fun k => ?_, fun a b => ?_⟩
  · rw [a2, keys_sub_mem hh.1 f1.1, f2]
    simp only [Counter.get_nil, Int.zero_add]
    rfl
  · rw [a3, keys_sub_mem hh.1 f1.1, f2, mem_borrowed_keys hb hpos, hg]
    simp only [Counter.get_nil, Int.zero_add]
    have : (0 < Max.max 0 (need D b - content hand b)) ↔ content hand b < need D b := by omega
    rw [this]
    rfl

theorem foldl_batch {hand : TileSet} (hh : HandOK hand) {w : Pattern} {n : Int}
    (rs : List HRes)
    (hs : ∀ r ∈ rs, ∃ D, Legal w D ∧ Feasible true D ∧ r.units = D.map unitOf ∧
      deficit D (content hand) = n + 1 ∧ HD r.borrowed ∧ AllPos r.borrowed ∧
      ∀ k, Counter.get r.borrowed k = Max.max 0 (need D k - content hand k))
    (acc : List (Tile × List Tile)) (h : AccOK acc) :
    AccOK (rs.foldl (batchStep hand) acc) ∧
    (∀ k, k ∈ (rs.foldl (batchStep hand) acc).map (fun e => e.1.view) ↔
      k ∈ acc.map (fun e => e.1.view) ∨
        ∃ r ∈ rs, ∃ D : List Group, r.units = D.map unitOf ∧ need D k < content hand k) ∧
    (∀ a b, RecK (rs.foldl (batchStep hand) acc) a b ↔
      RecK acc a b ∨ ∃ r ∈ rs, ∃ D : List Group, r.units = D.map unitOf ∧
        need D a < content hand a ∧ content hand b < need D b) := by
  induction rs generalizing acc with
  | nil => simp [h]
  | cons r rs ih =>
    obtain ⟨D, h1, h2, h3, h4, h5, h6, h7⟩ := hs r (by simp)
    obtain ⟨b1, b2, b3⟩ := batchStep_spec hh h1 h3 h5 h6 h7 acc h
    obtain ⟨a1, a2, a3⟩ := ih (fun r hr => hs r (by simp [hr])) _ b1
    have huniq : ∀ D' : List Group, r.units = D'.map unitOf → D' = D :=
      fun D' h => unitOf_inj_map (by rw [← h, h3])
    simp only [List.foldl_cons]
    refine ⟨a1, fun k => ?_, fun a b => ?_⟩
    · rw [a2, b2]
      constructor
      · rintro ((h | h) | ⟨r', hr', h⟩)
        · exact Or.inl h
        · exact Or.inr ⟨r, by simp, D, h3, h⟩
        · exact Or.inr ⟨r', by simp [hr'], h⟩
      · rintro (h | ⟨r', hr', D', hu, h⟩)
        · exact Or.inl (Or.inl h)
        · rcases List.mem_cons.1 hr' with rfl | hr'
          · rw [huniq D' hu] at h; exact Or.inl (Or.inr h)
          · exact Or.inr ⟨r', hr', D', hu, h⟩
    · rw [a3, b3]
      constructor
      · rintro ((h | h) | ⟨r', hr', h⟩)
        · exact Or.inl h
        · exact Or.inr ⟨r, by simp, D, h3, h⟩
        · exact Or.inr ⟨r', by simp [hr'], h⟩
      · rintro (h | ⟨r', hr', D', hu, h⟩)
        · exact Or.inl (Or.inl h)
        · rcases List.mem_cons.1 hr' with rfl | hr'
          · rw [huniq D' hu] at h; exact Or.inl (Or.inr h)
          · exact Or.inr ⟨r', hr', D', hu, h⟩

/-- what the batch call yields -/
theorem heurBatch_spec {s : Int} {w : Pattern} {hand : TileSet} (hh : HandOK hand)
    {l : List (Tile × Int × List Tile)} (h : heurBatch s w true hand = .ok l) :
    ∃ n, IsStep true w (content hand) n ∧ n + 1 ≤ Counter.total hand ∧
      (l.map (fun e => e.1.view)).Nodup ∧
      (∀ e ∈ l, e.2.1 = n ∧ RealTile e.1 ∧ (kindsOf e.2.2).Nodup ∧ ∀ t ∈ e.2.2, RealTile t) ∧
      (∀ k, k ∈ l.map (fun e => e.1.view) ↔
        ∃ D, Legal w D ∧ Feasible true D ∧ deficit D (content hand) = n + 1 ∧ need D k < content hand k) ∧
      (∀ e ∈ l, ∀ b, b ∈ kindsOf e.2.2 ↔
        ∃ D, Legal w D ∧ Feasible true D ∧ deficit D (content hand) = n + 1 ∧
          need D e.1.view < content hand e.1.view ∧ content hand b < need D b) := by
  unfold heurBatch at h
  rcases heurBefore_cases s (w := w) (ig := true) hh with ⟨h1, h2⟩ | ⟨n, h1, h2, h3⟩
  · rw [h1] at h; cases h
  rw [h1] at h
  simp only [Except.map, Except.ok.injEq] at h
  subst h
  have hn : IsStep true w (content (reSort hand)) n := by rw [content_reSort' hh]; exact h2
  have hr := HandOK.reSort' hh
  obtain ⟨a1, a2, a3⟩ := foldl_batch (w := w) (n := n) hr (heurCombos w true (reSort hand) n).1
    (fun r hr' => heurCombos_sound hr hn hr') [] ⟨by simp [DictOK], by simp⟩
  rw [content_reSort' hh] at a2 a3
  have key : ∀ D : List Group, ∀ r ∈ (heurCombos w true (reSort hand) n).1, r.units = D.map unitOf →
      Legal w D ∧ Feasible true D ∧ deficit D (content hand) = n + 1 := by
    intro D r hr' hu
    obtain ⟨D', b1, b2, b3, b4, _⟩ := heurCombos_sound hr hn hr'
    have : D' = D := unitOf_inj_map (by rw [← b3, hu])
    subst this
    rw [content_reSort' hh] at b4
    exact ⟨b1, b2, b4⟩
  have hcomp : ∀ D, Legal w D → Feasible true D → deficit D (content hand) = n + 1 →
      ∃ r ∈ (heurCombos w true (reSort hand) n).1, ∃ D' : List Group, D'.Perm D ∧ r.units = D'.map unitOf := by
    intro D c1 c2 c3
    obtain ⟨r, hr', hD', _⟩ := heurCombos_complete hr hn c1 c2 (by rw [content_reSort' hh]; exact c3)
    exact ⟨r, hr', hD'⟩
  have e1 : ∀ acc : List (Tile × List Tile), (acc.map (fun e => (e.1, n, e.2))).map (fun e => e.1.view) =
      acc.map (fun e => e.1.view) := by
    intro acc; rw [List.map_map]; rfl
  refine ⟨n, h2, h3, ?_, ?_, ?_, ?_⟩
  · rw [e1]; exact a1.dict
  · intro e he
    obtain ⟨e', he', rfl⟩ := List.mem_map.1 he
    have := a1.sets e' he'
    exact ⟨rfl, this.2.1, this.1, this.2.2⟩
  · intro k
    rw [e1, a2]
    simp only [List.map_nil, List.not_mem_nil, false_or]
    constructor
    · rintro ⟨r, hr', D, hu, hlt⟩
      obtain ⟨c1, c2, c3⟩ := key D r hr' hu
      exact ⟨D, c1, c2, c3, hlt⟩
    · rintro ⟨D, c1, c2, c3, hlt⟩
      obtain ⟨r, hr', D', hp, hu⟩ := hcomp D c1 c2 c3
      exact ⟨r, hr', D', hu, by rw [need_perm hp]; exact hlt⟩
  · intro e he b
    obtain ⟨e', he', rfl⟩ := List.mem_map.1 he
    have : b ∈ kindsOf e'.2 ↔ RecK ((heurCombos w true (reSort hand) n).1.foldl (batchStep (reSort hand)) [])
        e'.1.view b := by
      constructor
      · intro hb; exact ⟨e', he', rfl, hb⟩
      · rintro ⟨e'', he'', hv, hb⟩
        have : e'' = e' := by
          have hd := a1.dict
          unfold DictOK at hd
          exact List.inj_on_of_nodup_map hd he'' he' hv
        subst this
        exact hb
    show b ∈ kindsOf e'.2 ↔ _
    rw [this, a3]
    constructor
    · rintro (⟨x, hx, _⟩ | ⟨r, hr', D, hu, hlt⟩)
      · simp at hx
      · obtain ⟨c1, c2, c3⟩ := key D r hr' hu
        exact ⟨D, c1, c2, c3, hlt⟩
    · rintro ⟨D, c1, c2, c3, hlt⟩
      obtain ⟨r, hr', D', hp, hu⟩ := hcomp D c1 c2 c3
      exact Or.inr ⟨r, hr', D', hu, by simp only [need_perm hp]; exact hlt⟩

theorem heurBatch_ok {s : Int} {w : Pattern} {hand : TileSet} (hh : HandOK hand)
    {n : Int} (h : IsStep true w (content hand) n) (hle : n + 1 ≤ Counter.total hand) :
    ∃ l, heurBatch s w true hand = .ok l := by
  unfold heurBatch
  rw [(heurBefore_spec s hh n).2 ⟨h, hle⟩]
  exact ⟨_, rfl⟩

end Verif.Proofs
