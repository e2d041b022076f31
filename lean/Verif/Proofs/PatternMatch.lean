import Verif.Model.Reasoning
import Verif.Proofs.Deficit
import Verif.Proofs.TileSet

namespace Verif.Proofs
open Verif.Py Verif.Model Verif.Spec

/-- dict of real tiles with any counts (the searches drive counts below zero). -/
structure HD (c : TileSet) : Prop where
  wf : Counter.WF c
  real : AllReal c

theorem _root_.Verif.Spec.HandOK.hd {c : TileSet} (h : HandOK c) : HD c := ⟨h.1, h.2.1⟩

theorem HD.reSort {c : TileSet} (h : HD c) : HD (reSort c) :=
  ⟨WF_reSort h.wf, fun e he => h.real e ((reSort_perm c).mem_iff.1 he)⟩

theorem HD.del {c : TileSet} (h : HD c) (k : Kind) : HD (Counter.del c k) :=
  ⟨Counter.WF_del h.wf k, fun e he => h.real e (List.mem_filter.1 he).1⟩

theorem HD.subUnit {c : TileSet} (h : HD c) {g : Group} (hg : g.Proper) :
    HD (Counter.subtract c (unitOf g)) :=
  ⟨Counter.WF_subtract h.wf _, real_subtract h.real (AllReal_unitOf hg)⟩

theorem get_subUnit (c : TileSet) (g : Group) (k : Kind) :
    Counter.get (Counter.subtract c (unitOf g)) k = Counter.get c k - g.count k := by
  rw [Counter.get_subtract (WF_unitOf g), get_unitOf]

theorem keys_subUnit (c : TileSet) (g : Group) (k : Kind) :
    k ∈ Counter.keys (Counter.subtract c (unitOf g)) ↔ k ∈ Counter.keys c ∨ g.count k ≠ 0 := by
  rw [Counter.mem_keys_subtract, keys_unitOf]

theorem HD.get_invalid {c : TileSet} (h : HD c) {k : Kind} (hk : ¬ ValidKind k) :
    Counter.get c k = 0 :=
  Counter.get_of_not_mem (fun hm => hk (keys_valid h.real hm))

theorem mem_neg {c : TileSet} {e : Tile × Int} (h : e ∈ Counter.neg c) :
    0 < e.2 ∧ ∃ f ∈ c, f.1 = e.1 := by
  unfold Counter.neg at h
  rw [List.mem_filterMap] at h
  obtain ⟨f, hf, he⟩ := h
  split at he
  · simp at he; subst he; exact ⟨by simp; omega, f, hf, rfl⟩
  · simp at he

theorem HD.neg {c : TileSet} (h : HD c) : HD (Counter.neg c) :=
  ⟨Counter.WF_neg h.wf, fun e he => by
    obtain ⟨_, f, hf, hfe⟩ := mem_neg he
    rw [← hfe]; exact h.real f hf⟩

theorem AllPos_neg (c : TileSet) : AllPos (Counter.neg c) := fun _ he => (mem_neg he).1

theorem HD.borrowed {c : TileSet} (h : HD c) : borrowedTileCount c = borrow (Counter.get c) := by
  unfold borrowedTileCount borrow
  rw [total_eq_sumK h.neg.wf h.neg.real]
  exact sumK_congr (fun k _ => Counter.get_neg h.wf k)

theorem HD.total_pos {c : TileSet} (h : HD c) :
    Counter.total (Counter.pos c) = sumK (fun k => max 0 (Counter.get c k)) := by
  rw [total_eq_sumK (Counter.WF_pos h.wf) (fun e he => h.real e (List.mem_filter.1 he).1)]
  exact sumK_congr (fun k _ => Counter.get_pos h.wf k)

theorem withinLimits_iff {limits hand : TileSet} (h : Counter.WF hand) :
    withinLimits limits hand = true ↔
      ∀ k ∈ Counter.keys hand, Counter.get limits k ≤ Counter.get hand k := by
  unfold withinLimits
  rw [List.all_eq_true]
  constructor
  · intro hall k hk
    obtain ⟨e, he, rfl⟩ := Counter.mem_keys.1 hk
    have := hall e he
    rw [Counter.get_of_mem h he]
    simpa using this
  · intro hall e he
    have := hall _ (Counter.mem_keys.2 ⟨e, he, rfl⟩)
    rw [Counter.get_of_mem h he] at this
    simpa using this

/-! ### ALL_TILES -/

theorem allTiles_view : ALL_TILES.map Tile.view = allKinds := by decide

theorem allTiles_eq : ALL_TILES = allKinds.map plain := by decide

theorem allTiles_real : ∀ t ∈ ALL_TILES, RealTile t := by decide

theorem allTiles_sorted : ALL_TILES.Pairwise (fun a b => Kind.lt a.view b.view) := by decide

theorem mem_allTiles {k : Kind} (hk : ValidKind k) : ∃ t ∈ ALL_TILES, t.view = k := by
  have := mem_allKinds.2 hk
  rw [← allTiles_view, List.mem_map] at this
  exact this

theorem get_limit_fold (l : List Tile) (hn : (l.map Tile.view).Nodup) (b : TileSet) (k : Kind) :
    Counter.get (l.foldl (fun b t => Counter.set b t (Counter.get b (view t) - 4)) b) k =
      if k ∈ l.map Tile.view then Counter.get b k - 4 else Counter.get b k := by
  induction l generalizing b with
  | nil => simp
  | cons t l ih =>
    simp only [List.map_cons, List.nodup_cons] at hn
    rw [List.foldl_cons, ih hn.2, Counter.get_set]
    simp only [List.map_cons, List.mem_cons]
    have hv : view t = t.view := rfl
    by_cases hk : t.view = k
    · subst hk; simp [hn.1, hv]
    · have h2 : ¬ k = t.view := fun h => hk h.symm
      simp [hk, h2, hv]

theorem get_borrowedLimit {hand : TileSet} {k : Kind} (hk : ValidKind k) :
    Counter.get (borrowedLimit hand) k = Counter.get hand k - 4 := by
  unfold borrowedLimit
  rw [get_limit_fold _ (by rw [allTiles_view]; exact nodup_allKinds), allTiles_view,
    if_pos (mem_allKinds.2 hk)]

/-! ### soundness -/

/-- a tail of the tile order -/
structure Start (l : List Tile) : Prop where
  real : ∀ t ∈ l, RealTile t
  sorted : l.Pairwise (fun a b => Kind.lt a.view b.view)

theorem Start.tail {t : Tile} {l : List Tile} (h : Start (t :: l)) : Start l :=
  ⟨fun x hx => h.real x (by simp [hx]), (List.pairwise_cons.1 h.sorted).2⟩

theorem start_all : Start ALL_TILES := ⟨allTiles_real, allTiles_sorted⟩

/-- what one result of the search says about the hand it started from -/
structure PRes (ig : Bool) (limits : TileSet) (max : Int) (w : Pattern) (start : List Tile)
    (hand : TileSet) (r : Selection × TileSet) (D : List Group) : Prop where
  legal : Legal w D
  units : r.1 = D.map unitOf
  firsts : ∀ g ∈ D, ∃ t ∈ start, t.view = g.first
  hd : HD r.2
  pos : AllPos r.2
  borrowed : ∀ k, Counter.get r.2 k = Max.max 0 (need D k - Counter.get hand k)
  limit : ig = true → ∀ k, need D k ≠ 0 →
    Counter.get limits k ≤ Counter.get hand k - need D k
  le : deficit D (Counter.get hand) ≤ max

theorem need_before {D : List Group} {t : Tile} {rest : List Tile} (hs : Start (t :: rest))
    (hf : ∀ g ∈ D, ∃ t' ∈ rest, t'.view = g.first) : need D t.view = 0 := by
  apply Classical.byContradiction
  intro hne
  obtain ⟨g, hg, hc⟩ := exists_of_need_ne hne
  obtain ⟨t', ht', he⟩ := hf g hg
  have := (List.pairwise_cons.1 hs.sorted).1 t' ht'
  rw [he] at this
  exact Group.first_le_of_count hc this

/-- the hand after `if hand[tile] >= 0: del hand[tile]` -/
def dropTile (hand : TileSet) (k : Kind) : TileSet :=
  if 0 ≤ Counter.get hand k then Counter.del hand k else hand

theorem dropTile_hd {hand : TileSet} (h : HD hand) (k : Kind) : HD (dropTile hand k) := by
  unfold dropTile; split
  · exact h.del k
  · exact h

theorem dropTile_get {hand : TileSet} (h : HD hand) (k j : Kind) :
    Counter.get (dropTile hand k) j =
      if j = k then min 0 (Counter.get hand j) else Counter.get hand j := by
  unfold dropTile
  by_cases hj : j = k
  · subst hj
    split
    · rw [Counter.get_del h.wf]; simp; omega
    · simp; omega
  · have : ¬ k = j := fun e => hj e.symm
    split
    · rw [Counter.get_del h.wf]; simp [hj, this]
    · simp [hj]

theorem dropTile_keys {hand : TileSet} (k j : Kind) (hj : j ∈ Counter.keys (dropTile hand k)) :
    j ∈ Counter.keys hand := by
  unfold dropTile at hj
  split at hj
  · exact (Counter.mem_keys_del.1 hj).1
  · exact hj

theorem dropTile_max {hand : TileSet} (h : HD hand) {D : List Group} {k : Kind} (h0 : need D k = 0)
    (j : Kind) : Max.max 0 (need D j - Counter.get (dropTile hand k) j) =
      Max.max 0 (need D j - Counter.get hand j) := by
  rw [dropTile_get h]
  by_cases hj : j = k
  · subst hj; simp only [if_true]; omega
  · simp [hj]

theorem dropTile_deficit {hand : TileSet} (h : HD hand) {D : List Group} {k : Kind}
    (h0 : need D k = 0) :
    deficit D (Counter.get (dropTile hand k)) = deficit D (Counter.get hand) :=
  sumK_congr (fun j _ => dropTile_max h h0 j)

theorem pmTiles_cons (rec : TileSet → Pattern → List Tile → List (Selection × TileSet)) (w : Pattern)
    (t : Tile) (rest : List Tile) (hand : TileSet) :
    pmTiles rec w (t :: rest) hand =
    (w.nextStates t).flatMap (fun e =>
      (rec (Counter.subtract hand e.1) e.2 (t :: rest)).map (fun r => (e.1 :: r.1, r.2)))
    ++ pmTiles rec w rest (dropTile hand t.view) := rfl

theorem pmTiles_sound {ig : Bool} {limits : TileSet} {max : Int} {w : Pattern}
    {rec : TileSet → Pattern → List Tile → List (Selection × TileSet)}
    (hrec : ∀ hand w' start r, HD hand → Start start → r ∈ rec hand w' start →
      (ig = true → ∀ k ∈ Counter.keys hand, Counter.get limits k ≤ Counter.get hand k) ∧
      ∃ D, PRes ig limits max w' start hand r D)
    (start : List Tile) (hs : Start start) (hand : TileSet) (hh : HD hand)
    {r : Selection × TileSet} (hr : r ∈ pmTiles rec w start hand) :
    ∃ D, PRes ig limits max w start hand r D := by
  induction start generalizing hand with
  | nil => simp [pmTiles] at hr
  | cons t rest ih =>
    rw [pmTiles_cons, List.mem_append] at hr
    rcases hr with hr | hr
    · rw [List.mem_flatMap] at hr
      obtain ⟨⟨u, w'⟩, hu, hr⟩ := hr
      obtain ⟨r', hr', rfl⟩ := List.mem_map.1 hr
      obtain ⟨g, hg, hf, hst, rfl⟩ := (mem_nextStates (hs.real t (by simp))).1 hu
      obtain ⟨hck, D, hD⟩ := hrec _ _ _ _ (hh.subUnit hg) hs hr'
      refine ⟨g :: D, legal_cons.2 ⟨hg, w', hst, hD.legal⟩, ?_, ?_, hD.hd, hD.pos, ?_, ?_, ?_⟩
      · simp [hD.units]
      · intro g' hg'
        rcases List.mem_cons.1 hg' with rfl | hg'
        · exact ⟨t, by simp, hf.symm⟩
        · exact hD.firsts g' hg'
      · intro k
        show Counter.get r'.2 k = _
        rw [hD.borrowed k, get_subUnit, need_cons]
        omega
      · intro hig k hne
        by_cases h0 : need D k = 0
        · have hc : g.count k ≠ 0 := by rw [need_cons, h0] at hne; simpa using hne
          have := hck hig k ((keys_subUnit _ _ _).2 (Or.inr hc))
          rw [get_subUnit] at this
          rw [need_cons, h0]; omega
        · have := hD.limit hig k h0
          rw [get_subUnit] at this
          rw [need_cons]; omega
      · rw [deficit_cons]
        have := hD.le
        have he : deficit D (Counter.get (Counter.subtract hand (unitOf g))) =
            deficit D (hsub (Counter.get hand) g) :=
          deficit_congr (fun k _ => get_subUnit hand g k)
        omega
    · obtain ⟨D, hD⟩ := ih hs.tail _ (dropTile_hd hh t.view) hr
      have h0 := need_before hs hD.firsts
      refine ⟨D, hD.legal, hD.units, ?_, hD.hd, hD.pos, ?_, ?_, ?_⟩
      · intro g hg
        obtain ⟨t', ht', he⟩ := hD.firsts g hg
        exact ⟨t', by simp [ht'], he⟩
      · intro k; rw [hD.borrowed k, dropTile_max hh h0]
      · intro hig k hne
        have := hD.limit hig k hne
        rw [dropTile_get hh, if_neg] at this
        · exact this
        · intro e; subst e; exact hne h0
      · rw [← dropTile_deficit hh h0]; exact hD.le

theorem pmSel_sound {max : Int} {ig : Bool} {limits : TileSet} (fuel : Nat) :
    ∀ hand w start r, HD hand → Start start → r ∈ pmSel max ig limits fuel hand w start →
      (ig = true → ∀ k ∈ Counter.keys hand, Counter.get limits k ≤ Counter.get hand k) ∧
      ∃ D, PRes ig limits max w start hand r D := by
  induction fuel with
  | zero => intro hand w start r _ _ hr; simp [pmSel] at hr
  | succ fuel ih =>
    intro hand w start r hh hs hr
    simp only [pmSel] at hr
    split at hr
    · simp at hr
    · rename_i hb
      split at hr
      · simp at hr
      · rename_i hlim
        have hlim' : ig = true → ∀ k ∈ Counter.keys hand, Counter.get limits k ≤ Counter.get hand k := by
          intro hig
          rw [← withinLimits_iff hh.wf]
          simpa [hig] using hlim
        refine ⟨hlim', ?_⟩
        rcases List.mem_append.1 hr with hr | hr
        · split at hr
          · rename_i hw
            simp at hr; subst hr
            refine ⟨[], legal_nil.2 hw, rfl, by simp, hh.neg, AllPos_neg _, ?_, ?_, ?_⟩
            · intro k
              show Counter.get (Counter.neg hand) k = _
              rw [Counter.get_neg hh.wf]; simp
            · intro _ k hne; simp at hne
            · rw [deficit_nil, ← hh.borrowed]; omega
          · simp at hr
        · split at hr
          · simp at hr
          · exact pmTiles_sound ih start hs hand hh hr

/-! ### completeness -/

theorem pmTiles_complete {ig : Bool} {limits : TileSet} {max : Int} {w : Pattern} {D : List Group}
    (hne : D ≠ []) (hD : Legal w D)
    {rec : TileSet → Pattern → List Tile → List (Selection × TileSet)}
    (hrec : ∀ hand w' start D', w'.needUnits < w.needUnits → HD hand → Start start → Legal w' D' →
      (∀ g ∈ D', ∃ t ∈ start, t.view = g.first) →
      deficit D' (Counter.get hand) ≤ max →
      (ig = true → ∀ k, k ∈ Counter.keys hand ∨ need D' k ≠ 0 →
        Counter.get limits k ≤ Counter.get hand k - need D' k) →
      ∃ r ∈ rec hand w' start, ∃ D'' : List Group, D''.Perm D' ∧ r.1 = D''.map unitOf)
    (start : List Tile) (hs : Start start) (hand : TileSet) (hh : HD hand)
    (hf : ∀ g ∈ D, ∃ t ∈ start, t.view = g.first)
    (hle : deficit D (Counter.get hand) ≤ max)
    (hlim : ig = true → ∀ k, k ∈ Counter.keys hand ∨ need D k ≠ 0 →
        Counter.get limits k ≤ Counter.get hand k - need D k) :
    ∃ r ∈ pmTiles rec w start hand, ∃ D' : List Group, D'.Perm D ∧ r.1 = D'.map unitOf := by
  induction start generalizing hand with
  | nil =>
    obtain ⟨g, D', rfl⟩ := List.exists_cons_of_ne_nil hne
    obtain ⟨t, ht, _⟩ := hf g (by simp)
    simp at ht
  | cons t rest ih =>
    rw [pmTiles_cons]
    by_cases hex : ∃ g ∈ D, g.first = t.view
    · obtain ⟨g, hg, hft⟩ := hex
      obtain ⟨w', hst, hl⟩ := legal_take hD hg
      have hperm := List.perm_cons_erase hg
      have hp := hD.proper g hg
      obtain ⟨r, hr, D'', hD'', hu⟩ := hrec (Counter.subtract hand (unitOf g)) w' (t :: rest) (D.erase g)
        (by have := step_needUnits hst; omega) (hh.subUnit hp) hs hl
        (fun g' hg' => hf g' (List.mem_of_mem_erase hg'))
        (by
          have : deficit (D.erase g) (Counter.get (Counter.subtract hand (unitOf g))) =
              deficit D (Counter.get hand) := by
            rw [deficit_perm hperm, deficit_cons]
            exact deficit_congr (fun k _ => get_subUnit hand g k)
          omega)
        (by
          intro hig k hk
          rw [get_subUnit]
          have h1 := need_perm hperm k
          rw [need_cons] at h1
          have h2 := Group.count_nonneg g k
          have h3 := need_nonneg (D.erase g) k
          have := hlim hig k (by
            rcases hk with hk | hk
            · rcases (keys_subUnit _ _ _).1 hk with hk | hk
              · exact Or.inl hk
              · right; omega
            · right; omega)
          omega)
      refine ⟨(unitOf g :: r.1, r.2), ?_, g :: D'', ?_, by simp [hu]⟩
      · rw [List.mem_append]
        left
        rw [List.mem_flatMap]
        exact ⟨(unitOf g, w'), (mem_nextStates (hs.real t (by simp))).2 ⟨g, hp, hft, hst, rfl⟩,
          List.mem_map.2 ⟨r, hr, rfl⟩⟩
      · exact (List.Perm.cons g hD'').trans hperm.symm
    · have hf' : ∀ g ∈ D, ∃ t' ∈ rest, t'.view = g.first := by
        intro g hg
        obtain ⟨t', ht', he⟩ := hf g hg
        rcases List.mem_cons.1 ht' with rfl | ht'
        · exact absurd ⟨g, hg, he.symm⟩ hex
        · exact ⟨t', ht', he⟩
      have h0 := need_before hs hf'
      obtain ⟨r, hr, h⟩ := ih hs.tail (dropTile hand t.view) (dropTile_hd hh _) hf'
        (by rw [dropTile_deficit hh h0]; exact hle)
        (by
          intro hig k hk
          rw [dropTile_get hh]
          by_cases hkt : k = t.view
          · subst hkt
            have hk' : t.view ∈ Counter.keys (dropTile hand t.view) := by
              rcases hk with hk | hk
              · exact hk
              · exact absurd h0 hk
            have := hlim hig t.view (Or.inl (dropTile_keys _ _ hk'))
            have hneg : Counter.get hand t.view < 0 := by
              unfold dropTile at hk'
              split at hk'
              · exact absurd rfl (Counter.mem_keys_del.1 hk').2
              · omega
            simp only [if_true]; omega
          · rw [if_neg hkt]
            refine hlim hig k ?_
            rcases hk with hk | hk
            · exact Or.inl (dropTile_keys _ _ hk)
            · exact Or.inr hk)
      exact ⟨r, List.mem_append.2 (Or.inr hr), h⟩

theorem pmSel_complete {max : Int} {ig : Bool} {limits : TileSet} (fuel : Nat) :
    ∀ hand w start D, w.needUnits < fuel → HD hand → Start start → Legal w D →
      (∀ g ∈ D, ∃ t ∈ start, t.view = g.first) →
      deficit D (Counter.get hand) ≤ max →
      (ig = true → ∀ k, k ∈ Counter.keys hand ∨ need D k ≠ 0 →
        Counter.get limits k ≤ Counter.get hand k - need D k) →
      ∃ r ∈ pmSel max ig limits fuel hand w start, ∃ D' : List Group, D'.Perm D ∧ r.1 = D'.map unitOf := by
  induction fuel with
  | zero => intro hand w start D h; omega
  | succ fuel ih =>
    intro hand w start D hfuel hh hs hD hf hle hlim
    simp only [pmSel]
    rw [if_neg]
    · rw [if_neg]
      · by_cases hne : D = []
        · subst hne
          rw [if_pos (legal_nil.1 hD)]
          exact ⟨([], Counter.neg hand), by simp, [], List.Perm.refl _, rfl⟩
        · rw [if_neg (c := w.needCount > _)]
          · obtain ⟨r, hr, h⟩ := pmTiles_complete (max := max) hne hD (fun hand w' start D' hw => ih hand w' start D' (by omega))
              start hs hand hh hf hle hlim
            exact ⟨r, List.mem_append.2 (Or.inr hr), h⟩
          · rw [hD.needCount, hh.total_pos]
            have h1 : sumK (need D) ≤ sumK (fun k => Max.max 0 (Counter.get hand k) +
                Max.max 0 (need D k - Counter.get hand k)) :=
              sumK_mono (fun k _ => by omega)
            rw [sumK_add] at h1
            unfold deficit at hle
            omega
      · simp only [Bool.and_eq_true, Bool.not_eq_true', not_and, Bool.not_eq_false]
        intro hig
        rw [withinLimits_iff hh.wf]
        intro k hk
        have := hlim hig k (Or.inl hk)
        have := need_nonneg D k
        omega
    · rw [hh.borrowed]
      have := borrow_le_deficit D (Counter.get hand)
      omega

/-! ### the generator at the top -/

theorem feasible_limits {ig : Bool} {hand : TileSet} (hh : HD hand) {w : Pattern} {D : List Group}
    (hD : Legal w D) :
    Feasible ig D ↔ (ig = true → ∀ k, k ∈ Counter.keys hand ∨ need D k ≠ 0 →
      Counter.get (borrowedLimit hand) k ≤ Counter.get hand k - need D k) := by
  constructor
  · intro h hig k hk
    have hv : ValidKind k := by
      rcases hk with hk | hk
      · exact keys_valid hh.real hk
      · obtain ⟨g, hg, hc⟩ := exists_of_need_ne hk
        exact (hD.proper g hg).valid_of_count hc
    rw [get_borrowedLimit hv]
    have := h hig k
    omega
  · intro h hig k
    by_cases h0 : need D k = 0
    · omega
    · obtain ⟨g, hg, hc⟩ := exists_of_need_ne h0
      have := h hig k (Or.inr h0)
      rw [get_borrowedLimit ((hD.proper g hg).valid_of_count hc)] at this
      omega

theorem pmTop_sound {w : Pattern} {ig : Bool} {hand : TileSet} (hh : HandOK hand) {max : Int}
    {r : Selection × TileSet} (hr : r ∈ pmTop w ig hand max) :
    ∃ D, Legal w D ∧ Feasible ig D ∧ r.1 = D.map unitOf ∧ deficit D (content hand) ≤ max ∧
      HD r.2 ∧ AllPos r.2 ∧
      ∀ k, Counter.get r.2 k = Max.max 0 (need D k - content hand k) := by
  obtain ⟨_, D, hD⟩ := pmSel_sound _ _ _ _ _ hh.hd.reSort start_all hr
  have hg := fun k => get_reSort hh.1 k
  refine ⟨D, hD.legal, ?_, hD.units, ?_, hD.hd, hD.pos, ?_⟩
  · intro hig k
    by_cases h0 : need D k = 0
    · omega
    · have := hD.limit hig k h0
      obtain ⟨g, hg', hc⟩ := exists_of_need_ne h0
      rw [get_borrowedLimit ((hD.legal.proper g hg').valid_of_count hc), hg] at this
      omega
  · have := hD.le
    rwa [deficit_congr (h' := content hand) (fun k _ => hg k)] at this
  · intro k; rw [hD.borrowed k, hg]; rfl

theorem pmTop_complete {w : Pattern} {ig : Bool} {hand : TileSet} (hh : HandOK hand) {max : Int}
    {D : List Group} (hD : Legal w D) (hf : Feasible ig D)
    (hle : deficit D (content hand) ≤ max) :
    ∃ r ∈ pmTop w ig hand max, ∃ D' : List Group, D'.Perm D ∧ r.1 = D'.map unitOf := by
  have hg := fun k => get_reSort hh.1 k
  refine pmSel_complete _ _ _ _ _ (by omega) hh.hd.reSort start_all hD ?_ ?_ ?_
  · intro g hg
    exact mem_allTiles (hD.proper g hg).first_valid
  · rw [deficit_congr (h' := content hand) (fun k _ => hg k)]; exact hle
  · intro hig k hk
    rw [hg]
    refine (feasible_limits hh.hd hD).1 hf hig k ?_
    rcases hk with hk | hk
    · left
      have := ((reSort_perm hand).map (fun e => Keyed.view e.1)).mem_iff.1 hk
      exact this
    · exact Or.inr hk

theorem unitOf_inj_map {D D' : List Group} (h : D.map unitOf = D'.map unitOf) : D = D' :=
  areGroups_unitOf (by rw [h]; exact areGroups_map D')

/-- with the borrowed tiles attached -/
theorem pmTop_complete' {w : Pattern} {ig : Bool} {hand : TileSet} (hh : HandOK hand) {max : Int}
    {D : List Group} (hD : Legal w D) (hf : Feasible ig D)
    (hle : deficit D (content hand) ≤ max) :
    ∃ r ∈ pmTop w ig hand max, HD r.2 ∧ AllPos r.2 ∧
      ∀ k, Counter.get r.2 k = Max.max 0 (need D k - content hand k) := by
  obtain ⟨r, hr, D', hp, hu⟩ := pmTop_complete hh hD hf hle
  obtain ⟨D'', h1, h2, h3, h4, h5, h6, h7⟩ := pmTop_sound hh hr
  have : D'' = D' := unitOf_inj_map (by rw [← h3, hu])
  subst this
  exact ⟨r, hr, h5, h6, fun k => by rw [h7 k, need_perm hp]⟩

theorem pmTop_isEmpty {w : Pattern} {ig : Bool} {hand : TileSet} (hh : HandOK hand) {max : Int} :
    (pmTop w ig hand max).isEmpty = true ↔
      ∀ D, Legal w D → Feasible ig D → max < deficit D (content hand) := by
  constructor
  · intro he D h1 h2
    apply Int.not_le.1
    intro hle
    obtain ⟨r, hr, _⟩ := pmTop_complete hh h1 h2 hle
    rw [List.isEmpty_iff] at he
    rw [he] at hr; simp at hr
  · intro h
    rw [List.isEmpty_iff]
    apply List.eq_nil_iff_forall_not_mem.2
    intro r hr
    obtain ⟨D, h1, h2, _, h4, _⟩ := pmTop_sound hh hr
    have := h D h1 h2
    omega

/-! ### before_waiting_step -/

theorem pmBeforeLoop_spec {w : Pattern} {ig : Bool} {hand : TileSet} (hh : HandOK hand)
    (fuel need0 : Nat)
    (hlow : ∀ D, Legal w D → Feasible ig D → (need0 : Int) ≤ deficit D (content hand)) (n : Int) :
    pmBeforeLoop w ig hand fuel need0 = some n ↔ IsStep ig w (content hand) n ∧ n + 1 < need0 + fuel := by
  induction fuel generalizing need0 with
  | zero =>
    simp only [pmBeforeLoop]
    constructor
    · simp
    · rintro ⟨⟨⟨D, h1, h2, h3⟩, _⟩, h4⟩
      have := hlow D h1 h2
      omega
  | succ fuel ih =>
    simp only [pmBeforeLoop]
    by_cases he : (pmTop w ig hand need0).isEmpty = true
    · rw [if_pos he, ih (need0 + 1)]
      · constructor <;> rintro ⟨h1, h2⟩ <;> refine ⟨h1, by omega⟩
      · intro D h1 h2
        have := (pmTop_isEmpty hh).1 he D h1 h2
        omega
    · rw [if_neg he]
      have hex : ∃ D, Legal w D ∧ Feasible ig D ∧ deficit D (content hand) ≤ need0 := by
        apply Classical.byContradiction
        intro hno
        refine he ((pmTop_isEmpty hh).2 (fun D h1 h2 => ?_))
        apply Int.not_le.1
        intro hle
        exact hno ⟨D, h1, h2, hle⟩
      obtain ⟨D, h1, h2, h3⟩ := hex
      have h4 := hlow D h1 h2
      have hst : IsStep ig w (content hand) ((need0 : Int) - 1) :=
        ⟨⟨D, h1, h2, by omega⟩, fun D' a b => by have := hlow D' a b; omega⟩
      constructor
      · intro h
        simp at h; subst h
        exact ⟨hst, by omega⟩
      · rintro ⟨h5, _⟩
        rw [h5.unique hst]

theorem pmBefore_spec {w : Pattern} {ig : Bool} {hand : TileSet} (hh : HandOK hand) (fuel : Nat)
    (n : Int) :
    pmBefore w ig fuel hand = some n ↔ IsStep ig w (content hand) n ∧ n + 1 < fuel := by
  have := pmBeforeLoop_spec (w := w) (ig := ig) hh fuel 0
    (fun D _ _ => by have := deficit_nonneg D (content hand); simpa using this) n
  simpa [pmBefore] using this

/-! ### Python sets of tiles -/

/-- kinds in a Python set of tiles -/
def kindsOf (s : List Tile) : List Kind := s.map Tile.view

theorem mem_setAdd {s : List Tile} {t : Tile} {k : Kind} :
    k ∈ kindsOf (setAdd s t) ↔ k ∈ kindsOf s ∨ k = t.view := by
  unfold setAdd
  split
  · rename_i h
    constructor
    · exact Or.inl
    · rintro (h' | rfl)
      · exact h'
      · obtain ⟨x, hx, hxe⟩ := List.any_eq_true.1 h
        simp [Tile.eq] at hxe
        exact List.mem_map.2 ⟨x, hx, hxe⟩
  · simp [kindsOf]

theorem nodup_setAdd {s : List Tile} {t : Tile} (h : (kindsOf s).Nodup) :
    (kindsOf (setAdd s t)).Nodup := by
  unfold setAdd
  split
  · exact h
  · rename_i hn
    simp only [kindsOf, List.map_append, List.map_cons, List.map_nil]
    rw [List.nodup_append]
    refine ⟨h, by simp, ?_⟩
    intro a ha b hb
    simp at hb; subst hb
    rintro rfl
    apply hn
    obtain ⟨x, hx, hxe⟩ := List.mem_map.1 ha
    exact List.any_eq_true.2 ⟨x, hx, by simp [Tile.eq, hxe]⟩

theorem mem_setUpdate {s ts : List Tile} {k : Kind} :
    k ∈ kindsOf (setUpdate s ts) ↔ k ∈ kindsOf s ∨ k ∈ kindsOf ts := by
  unfold setUpdate
  induction ts generalizing s with
  | nil => simp [kindsOf]
  | cons t ts ih =>
    rw [List.foldl_cons, ih, mem_setAdd]
    simp [kindsOf, or_assoc]

theorem nodup_setUpdate {s ts : List Tile} (h : (kindsOf s).Nodup) :
    (kindsOf (setUpdate s ts)).Nodup := by
  unfold setUpdate
  induction ts generalizing s with
  | nil => exact h
  | cons t ts ih => exact ih (nodup_setAdd h)

theorem mem_setAdd_tile {s : List Tile} {t x : Tile} (h : x ∈ setAdd s t) : x ∈ s ∨ x = t := by
  unfold setAdd at h
  split at h
  · exact Or.inl h
  · simpa using h

theorem mem_setUpdate_tile {s ts : List Tile} {x : Tile} (h : x ∈ setUpdate s ts) :
    x ∈ s ∨ x ∈ ts := by
  unfold setUpdate at h
  induction ts generalizing s with
  | nil => exact Or.inl h
  | cons t ts ih =>
    rcases ih h with h | h
    · rcases mem_setAdd_tile h with h | h
      · exact Or.inl h
      · right; simp [h]
    · right; simp [h]

theorem mem_foldl_setUpdate {β : Type} (f : β → List Tile) (l : List β) (s : List Tile) (k : Kind) :
    k ∈ kindsOf (l.foldl (fun s r => setUpdate s (f r)) s) ↔
      k ∈ kindsOf s ∨ ∃ r ∈ l, k ∈ kindsOf (f r) := by
  induction l generalizing s with
  | nil => simp
  | cons a l ih =>
    rw [List.foldl_cons, ih, mem_setUpdate]
    simp [or_assoc]

theorem nodup_foldl_setUpdate {β : Type} (f : β → List Tile) (l : List β) (s : List Tile)
    (h : (kindsOf s).Nodup) : (kindsOf (l.foldl (fun s r => setUpdate s (f r)) s)).Nodup := by
  induction l generalizing s with
  | nil => exact h
  | cons a l ih => exact ih _ (nodup_setUpdate h)

/-- keys of a borrowed set -/
theorem mem_borrowed_keys {c : TileSet} (h : HD c) (hp : AllPos c) {k : Kind} :
    k ∈ kindsOf (c.map (fun e => e.1)) ↔ 0 < Counter.get c k := by
  have he : kindsOf (c.map (fun e => e.1)) = Counter.keys c := by
    unfold kindsOf Counter.keys
    rw [List.map_map]; rfl
  rw [he]
  constructor
  · intro hk
    obtain ⟨e, hm, rfl⟩ := Counter.mem_keys.1 hk
    rw [Counter.get_of_mem h.wf hm]
    exact hp e hm
  · intro hk
    exact Counter.mem_keys_of_get_ne (by omega)

/-! ### waiting_and_useful_tiles -/

theorem mem_pmUsefulAt {w : Pattern} {ig : Bool} {hand : TileSet} (hh : HandOK hand) {c : Nat}
    {k : Kind} :
    k ∈ kindsOf (pmUsefulAt w ig hand c) ↔
      ∃ D, Legal w D ∧ Feasible ig D ∧ deficit D (content hand) ≤ c ∧ content hand k < need D k := by
  unfold pmUsefulAt
  rw [mem_foldl_setUpdate (fun r : Selection × TileSet => r.2.map (fun e => e.1))]
  constructor
  · rintro (h | ⟨r, hr, hk⟩)
    · simp [kindsOf] at h
    · obtain ⟨D, h1, h2, _, h4, h5, h6, h7⟩ := pmTop_sound hh hr
      rw [mem_borrowed_keys h5 h6, h7] at hk
      exact ⟨D, h1, h2, h4, by omega⟩
  · rintro ⟨D, h1, h2, h3, h4⟩
    right
    obtain ⟨r, hr, h5, h6, h7⟩ := pmTop_complete' hh h1 h2 h3
    refine ⟨r, hr, ?_⟩
    rw [mem_borrowed_keys h5 h6, h7]
    omega

theorem nodup_pmUsefulAt (w : Pattern) (ig : Bool) (hand : TileSet) (c : Nat) :
    (kindsOf (pmUsefulAt w ig hand c)).Nodup := by
  unfold pmUsefulAt
  exact nodup_foldl_setUpdate (fun r : Selection × TileSet => r.2.map (fun e => e.1)) _ [] (by simp [kindsOf])

/-- `c` is the least number such that a win lacking between 1 and `c` tiles exists. -/
def LeastLacking (ig : Bool) (w : Pattern) (h : Kind → Int) (c : Nat) : Prop :=
  (∃ D, Legal w D ∧ Feasible ig D ∧ 0 < deficit D h ∧ deficit D h ≤ c) ∧
  ∀ D, Legal w D → Feasible ig D → 0 < deficit D h → (c : Int) ≤ deficit D h

theorem exists_lt_of_deficit_pos {D : List Group} {h : Kind → Int} (hd : 0 < deficit D h) :
    ∃ k, h k < need D k := by
  apply Classical.byContradiction
  intro hno
  have : deficit D h = sumK (fun _ => 0) :=
    sumK_congr (fun k _ => by
      have : ¬ h k < need D k := fun hk => hno ⟨k, hk⟩
      omega)
  rw [sumK_zero] at this
  omega

theorem deficit_pos_of_lt {D : List Group} {h : Kind → Int} {k : Kind} (hk : ValidKind k)
    (hlt : h k < need D k) : 0 < deficit D h := by
  have := le_sumK (f := fun k => Max.max 0 (need D k - h k)) (fun k _ => by omega) hk
  unfold deficit
  omega

theorem pmUsefulAt_pos {w : Pattern} {ig : Bool} {hand : TileSet} (hh : HandOK hand) {c : Nat} :
    (pmUsefulAt w ig hand c).length > 0 ↔
      ∃ D, Legal w D ∧ Feasible ig D ∧ 0 < deficit D (content hand) ∧ deficit D (content hand) ≤ c := by
  have hl : (pmUsefulAt w ig hand c).length = (kindsOf (pmUsefulAt w ig hand c)).length := by simp [kindsOf]
  rw [hl]
  constructor
  · intro h
    obtain ⟨k, hk⟩ := List.exists_mem_of_length_pos h
    obtain ⟨D, h1, h2, h3, h4⟩ := (mem_pmUsefulAt hh).1 hk
    refine ⟨D, h1, h2, deficit_pos_of_lt ?_ h4, h3⟩
    apply Classical.byContradiction
    intro hv
    rw [need_invalid h1.proper hv] at h4
    have := hh.get_nonneg k
    unfold content at h4
    omega
  · rintro ⟨D, h1, h2, h3, h4⟩
    obtain ⟨k, hk⟩ := exists_lt_of_deficit_pos h3
    exact List.length_pos_of_mem ((mem_pmUsefulAt hh).2 ⟨D, h1, h2, h4, hk⟩)

theorem pmUsefulLoop_spec {w : Pattern} {ig : Bool} {hand : TileSet} (hh : HandOK hand)
    (fuel need0 : Nat)
    (hlow : ∀ D, Legal w D → Feasible ig D → 0 < deficit D (content hand) →
      (need0 : Int) ≤ deficit D (content hand)) (r : Int × List Tile) :
    pmUsefulLoop w ig hand fuel need0 = some r ↔
      ∃ c : Nat, LeastLacking ig w (content hand) c ∧ need0 ≤ c ∧ c < need0 + fuel ∧
        r = ((c : Int) - 1, pmUsefulAt w ig hand c) := by
  induction fuel generalizing need0 with
  | zero =>
    simp only [pmUsefulLoop]
    constructor
    · simp
    · rintro ⟨c, _, h1, h2, _⟩; omega
  | succ fuel ih =>
    simp only [pmUsefulLoop]
    by_cases he : (pmUsefulAt w ig hand need0).length > 0
    · rw [if_pos he]
      have hL : LeastLacking ig w (content hand) need0 := ⟨(pmUsefulAt_pos hh).1 he, hlow⟩
      constructor
      · intro h
        simp only [Option.some.injEq] at h
        exact ⟨need0, hL, by omega, by omega, h.symm⟩
      · rintro ⟨c, hc, h1, h2, rfl⟩
        have : c = need0 := by
          obtain ⟨D, a1, a2, a3, a4⟩ := hL.1
          have := hc.2 D a1 a2 a3
          omega
        subst this; rfl
    · rw [if_neg he, ih (need0 + 1)]
      · constructor
        · rintro ⟨c, hc, h1, h2, h3⟩
          exact ⟨c, hc, by omega, by omega, h3⟩
        · rintro ⟨c, hc, h1, h2, h3⟩
          refine ⟨c, hc, ?_, by omega, h3⟩
          apply Nat.lt_of_le_of_ne h1
          rintro rfl
          exact he ((pmUsefulAt_pos hh).2 hc.1)
      · intro D a1 a2 a3
        have := hlow D a1 a2 a3
        apply Int.not_lt.1
        intro hlt
        exact he ((pmUsefulAt_pos hh).2 ⟨D, a1, a2, a3, by omega⟩)

theorem pmWaitingUseful_spec {w : Pattern} {ig : Bool} {hand : TileSet} (hh : HandOK hand)
    (fuel : Nat) (n : Int) (s : List Tile) :
    pmWaitingUseful w ig fuel hand = some (n, s) ↔
      ∃ c : Nat, LeastLacking ig w (content hand) c ∧ c < fuel ∧ n = (c : Int) - 1 ∧
        s = pmUsefulAt w ig hand c := by
  unfold pmWaitingUseful
  rw [pmUsefulLoop_spec hh fuel 0 (fun D _ _ _ => by have := deficit_nonneg D (content hand); simpa using this)]
  constructor
  · rintro ⟨c, h1, h2, h3, h4⟩
    simp only [Prod.mk.injEq] at h4
    exact ⟨c, h1, by omega, h4.1, h4.2⟩
  · rintro ⟨c, h1, h2, h3, h4⟩
    exact ⟨c, h1, by omega, by omega, by rw [h3, h4]⟩

/-- For a hand that does not win, the least lacking number is the waiting step plus one. -/
theorem leastLacking_iff_isStep {ig : Bool} {w : Pattern} {h : Kind → Int} (hh : ∀ k, 0 ≤ h k)
    (hw : ¬ Wins w h) (c : Nat) : LeastLacking ig w h c ↔ IsStep ig w h ((c : Int) - 1) := by
  have hpos : ∀ D, Legal w D → 0 < deficit D h := by
    intro D h1
    have := deficit_nonneg D h
    apply Classical.byContradiction
    intro h0
    exact hw ⟨D, h1, (deficit_zero_iff h1.proper hh).1 (by omega)⟩
  constructor
  · rintro ⟨⟨D, h1, h2, h3, h4⟩, h5⟩
    have := h5 D h1 h2 h3
    exact ⟨⟨D, h1, h2, by omega⟩, fun D' a b => by have := h5 D' a b (hpos D' a); omega⟩
  · rintro ⟨⟨D, h1, h2, h3⟩, h4⟩
    exact ⟨⟨D, h1, h2, hpos D h1, by omega⟩, fun D' a b _ => by have := h4 D' a b; omega⟩

end Verif.Proofs
