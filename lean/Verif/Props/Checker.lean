import Mathlib.Data.Set.Card
import Verif.Proofs.CheckerAnalysis
import Verif.Spec.Unicode
import Verif.Proofs.Float
import Mathlib.Data.Nat.Choose.Basic
import Mathlib.Data.Nat.Factorial.Basic
import Mathlib.Data.Rat.Defs
import Mathlib.Algebra.Field.Rat

/-! Properties C54 to C60: the record checker. -/
namespace Verif.Props
open Verif.Py Verif.Model Verif.Spec Verif.Proofs

/-! ### C54 -/

/-- **C54.** What `reasoning_merge` returns: the discard of the first item, the least waiting step of the list,
    and as useful tiles, each kind once, those of the items with that step. -/
theorem C54_merge (inv : List InvElem) (l : List RItem) (r : RItem) (h : reasoningMerge inv l = .ok r) :
    l.head?.map RItem.discard = some r.discard ∧
    (∃ y ∈ l, y.step = r.step) ∧ (∀ y ∈ l, r.step ≤ y.step) ∧
    (∀ k, k ∈ r.useful.map Tile.view ↔ ∃ y ∈ l, y.step = r.step ∧ k ∈ y.useful.map Tile.view) ∧
    (∀ t ∈ r.useful, ∃ y ∈ l, y.step = r.step ∧ t ∈ y.useful) ∧
    ((∀ y ∈ l, (y.useful.map Tile.view).Nodup) → (r.useful.map Tile.view).Nodup) := by
  cases l with
  | nil => cases h
  | cons x l =>
    simp only [reasoningMerge, pyMin_steps, bind, Except.bind] at h
    cases hc : usefulCount inv (l.foldl reduceUseful x).useful with
    | error e => rw [hc] at h; cases h
    | ok c =>
      rw [hc] at h
      simp only [pure, Except.pure, Except.ok.injEq] at h
      subst h
      obtain ⟨h1, h2, h3, h4, h5⟩ := fold_reduce l x
      exact ⟨rfl, h1, h2, h3, h4, h5⟩

/-- **C54.** The order of the list does not matter for step and kinds. -/
theorem C54_order (inv : List InvElem) (l l' : List RItem) (hp : l.Perm l') (r r' : RItem)
    (h : reasoningMerge inv l = .ok r) (h' : reasoningMerge inv l' = .ok r') :
    r.step = r'.step ∧ ∀ k, k ∈ r.useful.map Tile.view ↔ k ∈ r'.useful.map Tile.view := by
  obtain ⟨_, ⟨y, a1, a2⟩, a3, a4, _⟩ := C54_merge inv l r h
  obtain ⟨_, ⟨y', b1, b2⟩, b3, b4, _⟩ := C54_merge inv l' r' h'
  have e1 := a3 y' (hp.mem_iff.2 b1)
  have e2 := b3 y (hp.mem_iff.1 a1)
  have e : r.step = r'.step := by omega
  refine ⟨e, fun k => ?_⟩
  rw [a4, b4, e]
  constructor
  · rintro ⟨z, hz, hz'⟩; exact ⟨z, hp.mem_iff.1 hz, hz'⟩
  · rintro ⟨z, hz, hz'⟩; exact ⟨z, hp.mem_iff.2 hz, hz'⟩

/-- **C54.** It returns for every non-empty list whose useful tiles are tiles of the game; for the empty list
    `reduce` raises `TypeError`. -/
theorem C54_returns (inv : List InvElem) (l : List RItem) (hl : ∀ y ∈ l, ∀ t ∈ y.useful, RealTile t) :
    (l = [] → reasoningMerge inv l = .error .typeError) ∧ (l ≠ [] → ∃ r, reasoningMerge inv l = .ok r) := by
  refine ⟨fun h => by rw [h]; rfl, fun h => ?_⟩
  cases l with
  | nil => exact absurd rfl h
  | cons x l =>
    obtain ⟨_, _, _, h4, _⟩ := fold_reduce l x
    have : ∃ c, usefulCount inv (l.foldl reduceUseful x).useful = .ok c := by
      apply usefulCount_returns
      intro t ht
      obtain ⟨y, h1, _, h3⟩ := h4 t ht
      exact hl y h1 t h3
    obtain ⟨c, hc⟩ := this
    simp only [reasoningMerge, pyMin_steps, bind, Except.bind, hc]
    exact ⟨_, rfl⟩

/-- instance: two items at step 1 and one at step 2. -/
example : (reasoningMerge [.num 0, .num 1, .num 4, .num 40]
    [⟨⟨.z,1,false⟩, 2, [⟨.p,2,false⟩], 1⟩, ⟨⟨.z,1,false⟩, 1, [⟨.m,1,false⟩], 2⟩,
     ⟨⟨.z,1,false⟩, 1, [⟨.m,2,false⟩, ⟨.m,1,false⟩], 3⟩]).toOption =
    some ⟨⟨.z,1,false⟩, 1, [⟨.m,1,false⟩, ⟨.m,2,false⟩], 3⟩ := by decide +kernel

/-! ### C55 -/

/-- **C55.** For plain useful tiles of pairwise different kinds the count is the number of unseen tile numbers
    that are copies of one of these kinds. -/
theorem C55_count (inv : List InvElem) (hnd : inv.Nodup) (h0 : ∀ n, InvElem.num n ∈ inv → 0 ≤ n)
    (us : List Tile) (hreal : ∀ t ∈ us, RealTile t) (hplain : ∀ t ∈ us, t.aka = false)
    (hks : (us.map Tile.view).Nodup) (tile : Tile) (step : Int) :
    convertToReasoning inv tile us step = .ok ⟨tile, step, us, unseenOf inv (us.map Tile.view)⟩ := by
  unfold convertToReasoning
  rw [usefulCount_eq inv hnd h0 us hreal, ← unseen_sum inv _ hks, List.map_map]
  have : us.map (fun t => (countedKind t).elim 0 (unseen inv)) = us.map (unseen inv ∘ Tile.view) := by
    apply List.map_congr_left
    intro t ht
    simp [countedKind, hplain t ht]
  rw [this]
  rfl

/-- **C55.** In general every useful tile adds the unseen copies of one kind: a plain tile of its own kind, a red
    five not of the five, but of the tile before the first of its suit. -/
theorem C55_general (inv : List InvElem) (hnd : inv.Nodup) (h0 : ∀ n, InvElem.num n ∈ inv → 0 ≤ n)
    (us : List Tile) (hreal : ∀ t ∈ us, RealTile t) (tile : Tile) (step : Int) :
    convertToReasoning inv tile us step =
      .ok ⟨tile, step, us, ((us.map (fun t => (countedKind t).elim 0 (unseen inv))).sum : Nat)⟩ := by
  unfold convertToReasoning
  rw [usefulCount_eq inv hnd h0 us hreal]
  rfl

/-- **C55.** `reasoning_merge` counts in the same way. -/
theorem C55_merged (inv : List InvElem) (hnd : inv.Nodup) (h0 : ∀ n, InvElem.num n ∈ inv → 0 ≤ n)
    (l : List RItem) (hreal : ∀ y ∈ l, ∀ t ∈ y.useful, RealTile t) (hplain : ∀ y ∈ l, ∀ t ∈ y.useful, t.aka = false)
    (hks : ∀ y ∈ l, (y.useful.map Tile.view).Nodup) (r : RItem) (h : reasoningMerge inv l = .ok r) :
    r.count = unseenOf inv (r.useful.map Tile.view) := by
  obtain ⟨_, _, _, _, h5, h6⟩ := C54_merge inv l r h
  have hc : usefulCount inv r.useful = .ok r.count := by
    cases l with
    | nil => cases h
    | cons x l =>
      simp only [reasoningMerge, pyMin_steps, bind, Except.bind] at h
      cases hc : usefulCount inv (l.foldl reduceUseful x).useful with
      | error e => rw [hc] at h; cases h
      | ok c =>
        rw [hc] at h
        simp only [pure, Except.pure, Except.ok.injEq] at h
        subst h
        exact hc
  have := C55_count inv hnd h0 r.useful (fun t ht => by obtain ⟨y, a, _, b⟩ := h5 t ht; exact hreal y a t b)
    (fun t ht => by obtain ⟨y, a, _, b⟩ := h5 t ht; exact hplain y a t b) (h6 hks) r.discard r.step
  unfold convertToReasoning at this
  rw [hc] at this
  simp only [bind, Except.bind, pure, Except.pure, Except.ok.injEq, RItem.mk.injEq] at this
  exact this.2.2.2

/-- **C55** fails for red fives: with all four 5p and all four 9m unseen, a red 5p as useful tile counts the 9m;
    a red 5m counts nothing. -/
theorem C55_red_five :
    (convertToReasoning [.num 52, .num 53, .num 54, .num 55] ⟨.z,1,false⟩ [⟨.p,0,true⟩] 0).toOption.map RItem.count = some 0 ∧
    unseenOf [.num 52, .num 53, .num 54, .num 55] [(.p,5)] = 4 ∧
    (convertToReasoning [.num 32, .num 33] ⟨.z,1,false⟩ [⟨.p,0,true⟩] 0).toOption.map RItem.count = some 2 ∧
    unseenOf [.num 32, .num 33] [(.p,5)] = 0 ∧
    (convertToReasoning [.num 16, .num 17] ⟨.z,1,false⟩ [⟨.m,0,true⟩] 0).toOption.map RItem.count = some 0 := by
  decide +kernel

/-- instance: two kinds, three unseen copies. -/
example : (convertToReasoning [.num 0, .num 1, .num 4, .num 40] ⟨.z,1,false⟩ [⟨.m,2,false⟩, ⟨.m,1,false⟩] 0).toOption.map
    RItem.count = some 3 := by decide +kernel

/-! ### C56 -/

/-- **C56.** The expected reasonings are exactly the best of the merged ones, in their order; without merged
    ones `next` raises `StopIteration`. -/
theorem C56_expected (merged : List RItem) :
    (merged = [] → expectedReasonings merged = .error .stopIteration) ∧
    (merged ≠ [] → expectedReasonings merged = .ok (merged.filter (fun x => decide (BestItem merged x)))) :=
  expected_eq merged

/-- **C56.** In a report: what is shown as expected, and what as merged (a rearrangement of all the merged
    reasonings, best first). -/
theorem C56_report (iter : List Int → List Int) (player : Fin 4) (e : Event) (hand : List Int)
    (inv : List InvElem) (melds : List Meld) (r : RoundReasoning)
    (h : discardReasoning iter player e hand inv melds = .ok r) :
    ∃ a, analyse iter hand inv melds = .ok a ∧ a.merged ≠ [] ∧
      r.expected = (a.merged.filter (fun x => decide (BestItem a.merged x))).map RItem.norm ∧
      ∃ s : List RItem, s.Perm a.merged ∧ r.merged = s.map RItem.norm ∧
        s.Pairwise (fun x y => x.step < y.step ∨ (x.step = y.step ∧ y.count ≤ x.count)) := by
  obtain ⟨a, best, more, n, tile, items, your, rate, strs, ha, he, _, _, _, _, _, _, rfl⟩ := discardReasoning_inv h
  have hm : a.merged ≠ [] := by
    intro hm
    rw [(expected_eq a.merged).1 hm] at he
    cases he
  rw [(expected_eq a.merged).2 hm, Except.ok.injEq] at he
  refine ⟨a, ha, hm, by rw [he], _, pySorted_perm a.merged, rfl, ?_⟩
  have := (pySorted_filter (lt := keyLt) (q := fun _ => false) keyLt_neg keyLt_asymm (by simp) a.merged).1
  refine this.imp ?_
  intro x y hxy
  unfold keyLt at hxy
  split at hxy <;> simp at hxy <;> omega

/-- instance: of three discards two are best. -/
example : (expectedReasonings [⟨⟨.z,1,false⟩, 1, [], 8⟩, ⟨⟨.z,2,false⟩, 0, [], 2⟩, ⟨⟨.z,3,false⟩, 0, [], 4⟩,
      ⟨⟨.z,4,false⟩, 0, [], 4⟩]).toOption.map (fun l => l.map (fun x => x.discard.number)) = some [3, 4] := by decide +kernel

/-! ### C57 -/

/-- **C57.** A player with one to four melds: the merged reasonings are the right analysis of the discards, one
    item for every kind whose discard keeps the waiting step. -/
theorem C57_open (iter : List Int → List Int) (hi : ∀ l, (iter l).Perm l) (hand : List Int)
    (hn : ∀ n ∈ hand, 0 ≤ n ∧ n < 136) (inv : List InvElem) (melds : List Meld) (hk : 1 ≤ meldCount melds)
    (a : Analysis) (h : analyse iter hand inv melds = .ok a) :
    meldCount melds ≤ 4 ∧ DiscardAnalyses (.normal 1 (4 - meldCount melds)) (heldKinds hand) a.merged := by
  obtain ⟨tiles, lists, h4, ht, h1, h2, h3, h5, h6⟩ := analyse_inv h
  refine ⟨h4, ?_⟩
  obtain ⟨t1, t2, t3, _⟩ := analyse_hand hi hn
  rw [t1] at ht
  cases ht
  have hw : checkedWins (meldCount melds) = [.normal 1 (4 - meldCount melds)] := by
    unfold checkedWins; rw [if_neg (by omega)]
  rw [h3, hw] at h5
  obtain ⟨l, g1, rfl⟩ := winReasonings_one.1 h5
  obtain ⟨o1, o2, _⟩ := oneWin_spec t2 g1
  rw [merge_ones o2] at h6
  cases h6
  rw [← t3]
  exact o1

/-- **C57.** A player without melds: the reasonings for the normal form and for seven pairs are merged by
    position, whatever their discards are, up to the length of the shorter list.  The merged item names the
    discard of the normal-form item. -/
theorem C57_concealed (iter : List Int → List Int) (hi : ∀ l, (iter l).Perm l) (hand : List Int)
    (hn : ∀ n ∈ hand, 0 ≤ n ∧ n < 136) (inv : List InvElem) (melds : List Meld) (hk : meldCount melds = 0)
    (a : Analysis) (h : analyse iter hand inv melds = .ok a) :
    ∃ l1 l2 : List RItem, DiscardAnalyses (.normal 1 4) (heldKinds hand) l1 ∧
      DiscardAnalyses (.unique 7 []) (heldKinds hand) l2 ∧
      a.merged.length = min l1.length l2.length ∧
      ∀ (i : Nat) (x : RItem), a.merged[i]? = some x → ∃ y z, l1[i]? = some y ∧ l2[i]? = some z ∧
        x.discard = y.discard ∧ x.step = min y.step z.step ∧ (x.useful.map Tile.view).Nodup ∧
        ∀ k, k ∈ x.useful.map Tile.view ↔
          (y.step = x.step ∧ k ∈ y.useful.map Tile.view) ∨ (z.step = x.step ∧ k ∈ z.useful.map Tile.view) := by
  obtain ⟨tiles, lists, _, ht, h1, h2, h3, h5, h6⟩ := analyse_inv h
  obtain ⟨t1, t2, t3, _⟩ := analyse_hand hi hn
  rw [t1] at ht
  cases ht
  have hw : checkedWins (meldCount melds) = [.normal 1 4, .unique 7 []] := by rw [hk]; rfl
  rw [h3, hw] at h5
  obtain ⟨l1, l2, g1, g2, rfl⟩ := winReasonings_two.1 h5
  obtain ⟨o1, o2, _⟩ := oneWin_spec t2 g1
  obtain ⟨p1, p2, _⟩ := oneWin_spec (HandOK.reSort' t2) g2
  rw [content_reSort' t2, t3] at p1
  rw [t3] at o1
  refine ⟨l1, l2, o1, p1, ?_⟩
  rw [zipLists_two] at h6
  have hf := mapM_forall h6
  have hlen := hf.length_eq
  refine ⟨by rw [← hlen]; simp, ?_⟩
  intro i x hx
  obtain ⟨y, hy, hyx⟩ := hf.of_right hx
  rw [List.getElem?_map] at hy
  cases hz : (l1.zip l2)[i]? with
  | none => rw [hz] at hy; cases hy
  | some p =>
    rw [hz] at hy
    cases hy
    obtain ⟨hz1, hz2⟩ := List.getElem?_zip_eq_some.1 hz
    obtain ⟨e1, ⟨e2, m2, e2'⟩, e3, e4, _, e5⟩ := C54_merge _ _ _ hyx
    obtain ⟨n1, _, _, _, q1⟩ := o1
    obtain ⟨n2, _, _, _, q2⟩ := p1
    have a1 := e3 p.1 (by simp)
    have a2 := e3 p.2 (by simp)
    refine ⟨p.1, p.2, hz1, hz2, ?_, ?_, e5 ?_, fun k => ?_⟩
    · simpa [eq_comm] using e1
    · simp only [List.mem_cons, List.not_mem_nil, or_false] at m2
      rcases m2 with rfl | rfl <;> omega
    · intro y hy
      simp only [List.mem_cons, List.not_mem_nil, or_false] at hy
      rcases hy with rfl | rfl
      · exact (q1 _ (List.mem_of_getElem? hz1)).2.1
      · exact (q2 _ (List.mem_of_getElem? hz2)).2.1
    · rw [e4]
      simp

theorem ncard_list {α : Type} {l : List α} (h : l.Nodup) {s : Set α} (hs : ∀ x, x ∈ l ↔ x ∈ s) : s.ncard = l.length := by
  classical
  have : s = (l.toFinset : Set α) := by
    ext x
    rw [← hs, Finset.mem_coe, List.mem_toFinset]
  rw [this, Set.ncard_coe_finset, List.toFinset_card_of_nodup h]

/-- discarding does not lower a step -/
theorem step_minus {w : Pattern} {h : Kind → Int} {k : Kind} (hk : ValidKind k) {n m : Int} (a : IsStep true w h n)
    (b : IsStep true w (minus h k) m) : n ≤ m ∧ m ≤ n + 1 := by
  have := isStep_plus hk b (by rw [minus_plus]; exact a)
  omega

theorem held_valid {hand : List Int} {k : Kind} (h : 0 < heldKinds hand k) : ValidKind k := by
  unfold heldKinds at h
  have : 0 < (hand.filter (fun m => decide (CopyOf m k))).length := by omega
  obtain ⟨m, hm⟩ := List.exists_mem_of_length_pos this
  have := (List.mem_filter.1 hm).2
  simp only [decide_eq_true_eq] at this
  exact mem_allKinds.1 (List.mem_of_getElem? this.2.2)

/-- **C57.** A player without melds whose hand is nearer to four melds and a pair than to seven pairs: every item is right.  There
    may be fewer than there should be, namely not more than there are discards that keep the waiting step for seven pairs. -/
theorem C57_lower (iter : List Int → List Int) (hi : ∀ l, (iter l).Perm l) (hand : List Int)
    (hn : ∀ n ∈ hand, 0 ≤ n ∧ n < 136) (inv : List InvElem) (melds : List Meld) (hk : meldCount melds = 0)
    (a : Analysis) (h : analyse iter hand inv melds = .ok a) (n m : Int) (hs : IsStep true (.normal 1 4) (heldKinds hand) n)
    (hp : IsStep true (.unique 7 []) (heldKinds hand) m) (hlt : n < m) :
    StepFor (checkedWins (meldCount melds)) (heldKinds hand) n ∧
    RightItems (checkedWins (meldCount melds)) (heldKinds hand) n a.merged ∧
    a.merged.length = min (Keepers (checkedWins (meldCount melds)) (heldKinds hand) n).ncard
      (Keepers [.unique 7 []] (heldKinds hand) m).ncard := by
  obtain ⟨l1, l2, ⟨n1, a1, a2, a3, a4⟩, ⟨n2, b1, b2, b3, b4⟩, hlen, hc⟩ := C57_concealed iter hi hand hn inv melds hk a h
  have e1 := a1.unique hs
  have e2 := b1.unique hp
  subst e1 e2
  have hw : checkedWins (meldCount melds) = [.normal 1 4, .unique 7 []] := by rw [hk]; rfl
  rw [hw]
  have stepFor : ∀ k, 0 < heldKinds hand k → (StepFor [.normal 1 4, .unique 7 []] (minus (heldKinds hand) k) n1 ↔
      IsStep true (.normal 1 4) (minus (heldKinds hand) k) n1) := by
    intro k hk
    have hv := held_valid hk
    constructor
    · rintro ⟨⟨w, hw, hst⟩, _⟩
      simp only [List.mem_cons, List.not_mem_nil, or_false] at hw
      rcases hw with rfl | rfl
      · exact hst
      · have := (step_minus hv b1 hst).1
        omega
    · intro hst
      refine ⟨⟨_, by simp, hst⟩, ?_⟩
      intro w hw j hj
      simp only [List.mem_cons, List.not_mem_nil, or_false] at hw
      rcases hw with rfl | rfl
      · exact le_of_eq (hst.unique hj)
      · have := (step_minus hv b1 hj).1
        omega
  have usefulFor : ∀ k, 0 < heldKinds hand k → IsStep true (.normal 1 4) (minus (heldKinds hand) k) n1 → ∀ u,
      (UsefulFor [.normal 1 4, .unique 7 []] (minus (heldKinds hand) k) n1 u ↔ UsefulKind (.normal 1 4) (minus (heldKinds hand) k) u) := by
    intro k hk hst u
    have hv := held_valid hk
    constructor
    · rintro ⟨w, hw, hst', hu⟩
      simp only [List.mem_cons, List.not_mem_nil, or_false] at hw
      rcases hw with rfl | rfl
      · exact hu
      · have := (step_minus hv b1 hst').1
        omega
    · exact fun hu => ⟨_, by simp, hst, hu⟩
  have key : ∀ (i : Nat) (x : RItem), a.merged[i]? = some x → ∃ y, l1[i]? = some y ∧ x.discard = y.discard ∧ x.step = n1 ∧
      (x.useful.map Tile.view).Nodup ∧ ∀ u, u ∈ x.useful.map Tile.view ↔ UsefulKind (.normal 1 4) (minus (heldKinds hand) x.discard.view) u := by
    intro i x hx
    obtain ⟨y, z, hy, hz, hd, hst, hu, huk⟩ := hc i x hx
    have y1 := a4 y (List.mem_of_getElem? hy)
    have z1 := b4 z (List.mem_of_getElem? hz)
    have hst' : x.step = n1 := by omega
    refine ⟨y, hy, hd, hst', hu, ?_⟩
    intro u
    rw [huk, hd, ← y1.2.2 u]
    constructor
    · rintro (⟨_, hu⟩ | ⟨hz', _⟩)
      · exact hu
      · omega
    · exact fun hu => Or.inl ⟨by omega, hu⟩
  have hpre : a.merged.map (fun x => x.discard.view) = (l1.map (fun x => x.discard.view)).take a.merged.length := by
    apply List.ext_getElem?
    intro i
    rw [List.getElem?_map, List.getElem?_take]
    by_cases hi : i < a.merged.length
    · obtain ⟨y, hy, hd, _⟩ := key i _ (List.getElem?_eq_getElem hi)
      rw [if_pos hi, List.getElem?_eq_getElem hi, List.getElem?_map, hy]
      simp [hd]
    · rw [if_neg hi, List.getElem?_eq_none (by omega)]
      rfl
  refine ⟨⟨⟨_, by simp, a1⟩, ?_⟩, ⟨?_, ?_⟩, ?_⟩
  · intro w hw j hj
    simp only [List.mem_cons, List.not_mem_nil, or_false] at hw
    rcases hw with rfl | rfl
    · exact le_of_eq (a1.unique hj)
    · have := b1.unique hj
      omega
  · rw [hpre]
    exact a2.sublist (List.take_sublist _ _)
  · intro x hx
    obtain ⟨i, hx⟩ := List.mem_iff_getElem?.1 hx
    obtain ⟨y, hy, hd, hst, hu, huk⟩ := key i x hx
    have hkp := (a3 x.discard.view).1 (List.mem_map.2 ⟨y, List.mem_of_getElem? hy, by rw [hd]⟩)
    refine ⟨⟨hkp.1, (stepFor _ hkp.1).2 hkp.2⟩, hst, hu, ?_⟩
    intro u
    rw [huk, usefulFor _ hkp.1 hkp.2]
  · rw [hlen, ncard_list a2 (s := Keepers [.normal 1 4, .unique 7 []] (heldKinds hand) n1), ncard_list b2
      (s := Keepers [.unique 7 []] (heldKinds hand) n2), List.length_map, List.length_map]
    · intro k
      rw [b3]
      constructor
      · rintro ⟨h1, h2⟩
        refine ⟨h1, ⟨_, by simp, h2⟩, ?_⟩
        intro w hw j hj
        rw [List.mem_singleton] at hw
        subst hw
        exact le_of_eq (h2.unique hj)
      · rintro ⟨h1, ⟨w, hw, h2⟩, _⟩
        rw [List.mem_singleton] at hw
        subst hw
        exact ⟨h1, h2⟩
    · intro k
      rw [a3]
      constructor
      · rintro ⟨h1, h2⟩
        exact ⟨h1, (stepFor k h1).2 h2⟩
      · rintro ⟨h1, h2⟩
        exact ⟨h1, (stepFor k h1).1 h2⟩

/-- 11m 22m 33m 44p 55p 66p 7p 8p, none of them red -/
def mixedHand : List Int := [1, 2, 5, 6, 9, 10, 49, 50, 53, 54, 57, 58, 61, 65]
/-- all 136 tile numbers -/
def allNumbers : List InvElem := (List.range 136).map (fun (i : Nat) => InvElem.num (i : Int))

/-- the analysis of that hand, and that of discarding 5p on its own -/
def mixedRun : Option (List RItem × RItem) :=
  (do
    let a ← analyse id mixedHand allNumbers []
    let y ← reasoningMerge a.invisible (← a.wins.mapM (reasoningDiscards a.invisible a.hand ⟨.p,5,false⟩))
    pure (a.merged, y)).toOption

set_option maxRecDepth 100000 in
theorem mixedRun_eq : mixedRun = some
    ([⟨⟨.p,8,false⟩, 0, [⟨.p,4,false⟩, ⟨.p,7,false⟩], 5⟩,
      ⟨⟨.p,5,false⟩, 0, [⟨.p,7,false⟩, ⟨.p,4,false⟩, ⟨.p,8,false⟩], 8⟩],
     ⟨⟨.p,5,false⟩, 0, [⟨.p,7,false⟩, ⟨.p,4,false⟩], 5⟩) := by decide +kernel

/-- **C57** fails for this concealed hand: the merged reasoning for discarding 5p takes its useful tile 8p from the
    seven-pairs analysis of discarding 7p, and counts 8 tiles; analysed by itself the discard of 5p has 5 useful
    tiles and 8p is not among them.  The item for 5p is even the expected one. -/
theorem C57_mixed_discards :
    ∃ a x y, analyse id mixedHand allNumbers [] = .ok a ∧ x ∈ a.merged ∧ x.discard = ⟨.p,5,false⟩ ∧
      (do reasoningMerge a.invisible (← a.wins.mapM (reasoningDiscards a.invisible a.hand x.discard))) = .ok y ∧
      x.count = 8 ∧ y.count = 5 ∧ (.p,8) ∈ x.useful.map Tile.view ∧ (.p,8) ∉ y.useful.map Tile.view ∧
      expectedReasonings a.merged = .ok [x] := by
  have h := mixedRun_eq
  unfold mixedRun at h
  cases ha : analyse id mixedHand allNumbers [] with
  | error e => rw [ha] at h; cases h
  | ok a =>
    rw [ha] at h
    simp only [bind, Except.bind] at h
    cases hi : a.wins.mapM (reasoningDiscards a.invisible a.hand ⟨.p,5,false⟩) with
    | error e => rw [hi] at h; cases h
    | ok items =>
      rw [hi] at h
      simp only at h
      cases hy : reasoningMerge a.invisible items with
      | error e => rw [hy] at h; cases h
      | ok y =>
        rw [hy] at h
        simp only [pure, Except.pure, Except.toOption, Option.some.injEq, Prod.mk.injEq] at h
        obtain ⟨h1, h2⟩ := h
        refine ⟨a, _, y, rfl, by rw [h1]; exact List.mem_cons_of_mem _ List.mem_cons_self, rfl, ?_, rfl, by rw [h2], ?_, ?_, ?_⟩
        · show (a.wins.mapM (reasoningDiscards a.invisible a.hand ⟨.p,5,false⟩)).bind _ = _
          rw [hi]
          exact hy
        · decide +kernel
        · rw [h2]; decide +kernel
        · rw [h1]; decide +kernel

/-! ### C59 -/

/-- **C59.** `n_a_r` is the falling factorial, for all natural arguments. -/
theorem C59_falling (n r : Nat) : nAr n r = (n.descFactorial r : Nat) := nAr_eq n r

/-- **C59.** `n_c_r` is, for `0 ≤ r ≤ n`, the float nearest to the binomial coefficient: the coefficient itself up to `2 ^ 53`. -/
theorem C59_binomial (n r : Nat) (h : r ≤ n) :
    ∃ f, nCr n r = .ok f ∧ NearestDouble (n.choose r) f ∧ (n.choose r ≤ 2 ^ 53 → f = n.choose r) := by
  have key : ∀ m : Nat, m ≤ n → n.choose m = n.choose r →
      (if nAr (m : Int) m = 0 then (.error .zeroDivision : Except PyErr Rat)
        else .ok (roundDouble ((nAr n m : Rat) / (nAr (m : Int) m : Rat)))) = .ok (roundDouble (n.choose r : Nat)) := by
    intro m hm hc
    rw [nAr_eq, nAr_eq, Nat.descFactorial_self]
    have hf : (m.factorial : Int) ≠ 0 := by exact_mod_cast m.factorial_ne_zero
    rw [if_neg hf, Nat.descFactorial_eq_factorial_mul_choose, hc]
    congr 2
    have hf' : (m.factorial : Rat) ≠ 0 := by exact_mod_cast m.factorial_ne_zero
    push_cast
    rw [mul_comm, mul_div_assoc, div_self hf', mul_one]
  refine ⟨roundDouble (n.choose r : Nat), ?_, roundDouble_nearest _, fun hb => ?_⟩
  · unfold nCr
    simp only
    by_cases hle : r ≤ n - r
    · have : min (r : Int) ((n : Int) - r) = (r : Int) := by omega
      rw [this]
      exact key r h rfl
    · have : min (r : Int) ((n : Int) - r) = ((n - r : Nat) : Int) := by omega
      rw [this]
      exact key (n - r) (by omega) (Nat.choose_symm h)
  · have := roundDouble_int (z := (n.choose r : Nat)) (by rw [abs_of_nonneg (by omega)]; exact_mod_cast hb)
    simpa using this

/-- **C59** above `2 ^ 53` the answer can be another number. -/
theorem C59_rounded : ∃ f : Rat, nCr 61 30 = .ok f ∧ f ≠ ((61 : Nat).choose 30 : Nat) := by
  refine ⟨232714176627630528, by decide +kernel, ?_⟩
  have h : ((61 : Nat).choose 30 : Nat) = 232714176627630544 := by
    rw [Nat.choose_eq_descFactorial_div_factorial]
    decide +kernel
  rw [h]
  norm_num

/-- **C59** outside that range: for `r > n` and for negative `r` the answer is 1, not 0. -/
theorem C59_outside (n r : Int) (h : r < 0 ∨ n < r) : nCr n r = .ok 1 := by
  unfold nCr
  have h1 : min r (n - r) < 0 := by omega
  have h2 : ∀ a b : Int, b < 0 → nAr a b = 1 := by
    intro a b hb
    unfold nAr downFrom
    rw [show b.toNat = 0 by omega]
    rfl
  simp only [h2 _ _ h1]
  decide +kernel

/-- instances -/
example : nCr 5 2 = .ok 10 ∧ nCr 136 3 = .ok 410040 ∧ nCr 2 3 = .ok 1 := by decide +kernel

/-! ### C60 -/

/-- **C60.** A plain tile of one of the 34 kinds is shown as the symbol standing for that kind in the Unicode
    block. -/
theorem C60_symbol (t : Tile) (ht : RealTile t) (hp : t.aka = false) (i : Nat) :
    unicodeTile t = .ok (0x1f000 + (i : Int)) ↔ unicodeOrder[i]? = some t.view := by
  obtain ⟨j, hj, hk, hu⟩ := unicode_table t ht hp
  rw [hu, ← hk]
  have key : ∀ a b : Fin 34, unicodeOrder[a.val]? = unicodeOrder[b.val]? → a = b := by decide +kernel
  constructor
  · intro h
    have : i = j := by
      injection h with h; omega
    rw [this]
  · intro h
    have hi : i < 34 := by
      rcases Nat.lt_or_ge i 34 with h' | h'
      · exact h'
      · rw [List.getElem?_eq_none (by simpa [unicodeOrder] using h'), hk] at h
        cases h
    have := key ⟨i, hi⟩ ⟨j, hj⟩ h
    simp only [Fin.mk.injEq] at this
    rw [this]

/-- **C60.** Different kinds have different symbols, and the symbols are the 34 from U+1F000 on. -/
theorem C60_bijection :
    (∀ t u : Tile, RealTile t → RealTile u → t.aka = false → u.aka = false → unicodeTile t = unicodeTile u → t = u) ∧
    (∀ i : Nat, i < 34 → ∃ t : Tile, RealTile t ∧ t.aka = false ∧ unicodeTile t = .ok (0x1f000 + (i : Int))) ∧
    (∀ t : Tile, RealTile t → t.aka = false → ∃ i : Nat, i < 34 ∧ unicodeTile t = .ok (0x1f000 + (i : Int))) := by
  refine ⟨?_, ?_, ?_⟩
  · intro t u ht hu h1 h2 h
    obtain ⟨j, _, hk, hj⟩ := unicode_table t ht h1
    have h3 := (C60_symbol u hu h2 j).1 (by rw [← h]; exact hj)
    rw [hk, Option.some.injEq] at h3
    obtain ⟨c, n, a⟩ := t
    obtain ⟨c', n', a'⟩ := u
    simp only at h1 h2
    subst h1 h2
    simp only [Tile.view, Bool.false_eq_true, if_false, Prod.mk.injEq] at h3
    rw [h3.1, h3.2]
  · have key : ∀ i : Fin 34, (unicodeOrder[i.val]?).any (fun k => decide (RealTile ⟨k.1, k.2, false⟩ ∧
        unicodeTile ⟨k.1, k.2, false⟩ = .ok (0x1f000 + (i.val : Int)))) = true := by decide +kernel
    intro i hi
    have := key ⟨i, hi⟩
    rw [Option.any_eq_true] at this
    obtain ⟨k, _, hk⟩ := this
    have hk := of_decide_eq_true hk
    exact ⟨⟨k.1, k.2, false⟩, hk.1, rfl, hk.2⟩
  · intro t ht hp
    obtain ⟨j, h1, _, h3⟩ := unicode_table t ht hp
    exact ⟨j, h1, h3⟩

/-- **C60** fails for red fives: they are shown as the white dragon, the nine of bamboos and the nine of characters. -/
theorem C60_red_fives :
    unicodeTile ⟨.m,0,true⟩ = unicodeTile ⟨.z,5,false⟩ ∧ unicodeTile ⟨.p,0,true⟩ = unicodeTile ⟨.s,9,false⟩ ∧
    unicodeTile ⟨.s,0,true⟩ = unicodeTile ⟨.m,9,false⟩ := by decide +kernel

/-- instance -/
example : unicodeTile ⟨.z,7,false⟩ = .ok 0x1f004 ∧ unicodeTile ⟨.p,9,false⟩ = .ok 0x1f021 := by decide +kernel

end Verif.Props
