import Verif.Proofs.PatternMatch

namespace Verif.Proofs
open Verif.Py Verif.Model Verif.Spec

theorem mem_productRepeat {T : List Tile} {n : Nat} {l : List Tile} :
    l ∈ productRepeat T n ↔ l.length = n ∧ ∀ x ∈ l, x ∈ T := by
  induction n generalizing l with
  | zero =>
    simp only [productRepeat, List.mem_singleton, List.length_eq_zero_iff]
    constructor
    · rintro rfl; simp
    · exact fun h => h.1
  | succ n ih =>
    simp only [productRepeat, List.mem_flatMap, List.mem_map]
    constructor
    · rintro ⟨t, ht, r, hr, rfl⟩
      obtain ⟨h1, h2⟩ := ih.1 hr
      refine ⟨by simp [h1], ?_⟩
      intro x hx
      rcases List.mem_cons.1 hx with rfl | hx
      · exact ht
      · exact h2 x hx
    · rintro ⟨h1, h2⟩
      cases l with
      | nil => simp at h1
      | cons t r =>
        exact ⟨t, h2 t (by simp), r, ih.2 ⟨by simpa using h1, fun x hx => h2 x (by simp [hx])⟩, rfl⟩

theorem count_eq_zero_of_not_real {l : List Tile} (h : ∀ t ∈ l, RealTile t) {k : Kind}
    (hk : ¬ ValidKind k) : (l.map Tile.view).count k = 0 := by
  rw [List.count_eq_zero]
  intro hm
  obtain ⟨t, ht, rfl⟩ := List.mem_map.1 hm
  exact hk (h t ht).1

theorem count_inst {κ : Type} [DecidableEq κ] [inst : BEq κ] [LawfulBEq κ] (l : List κ) (k : κ) :
    @List.count κ instBEqOfDecidableEq k l = @List.count κ inst k l := by
  have : (instBEqOfDecidableEq : BEq κ) = inst := by
    cases inst with
    | mk f =>
      refine congrArg BEq.mk (funext fun a => funext fun b => ?_)
      have h2 : f a b = true ↔ a = b := @beq_iff_eq κ ⟨f⟩ _ a b
      by_cases hab : a = b
      · rw [h2.2 hab]; exact decide_eq_true hab
      · have : f a b = false := by
          cases hf : f a b
          · rfl
          · exact absurd (h2.1 hf) hab
        rw [this]; exact decide_eq_false hab
  rw [this]

theorem get_ofIter' (l : List Tile) (k : Kind) :
    Counter.get (Counter.ofIter l : TileSet) k = ((l.map Tile.view).count k : Int) :=
  (Counter.get_ofIter l k).trans (congrArg Nat.cast (count_inst (l.map Tile.view) k))

theorem total_ofIter_real {l : List Tile} (h : ∀ t ∈ l, RealTile t) :
    sumK (fun k => ((l.map Tile.view).count k : Int)) = l.length := by
  induction l with
  | nil => simp [sumK_zero]
  | cons t l ih =>
    have : sumK (fun k => (((t :: l).map Tile.view).count k : Int)) =
        sumK (fun k => ((l.map Tile.view).count k : Int) + if k = t.view then 1 else 0) := by
      refine sumK_congr (fun k _ => ?_)
      rw [List.map_cons, List.count_cons]
      by_cases hk : t.view = k
      · subst hk; simp
      · have : ¬ k = t.view := fun e => hk e.symm
        simp [hk, this]
    rw [this, sumK_add, ih (fun x hx => h x (by simp [hx])), sumK_single (h t (by simp)).1]
    simp

theorem content_added {hand : TileSet} (hh : HandOK hand) (l : List Tile) (k : Kind) :
    content (TileSet.add hand (Counter.ofIter l)) k = content hand k + ((l.map Tile.view).count k : Int) := by
  unfold content
  rw [get_add hh.1 (Counter.WF_ofIter l), get_ofIter']
  have := hh.get_nonneg k
  omega

theorem all_le_four {c : TileSet} (hh : HandOK c) :
    c.all (fun e => decide (e.2 ≤ 4)) = true ↔ AtMostFour (content c) := by
  rw [List.all_eq_true]
  constructor
  · intro h k
    by_cases hk : k ∈ Counter.keys c
    · obtain ⟨e, he, rfl⟩ := Counter.mem_keys.1 hk
      unfold content
      rw [Counter.get_of_mem hh.1 he]
      simpa using h e he
    · unfold content; rw [Counter.get_of_not_mem hk]; omega
  · intro h e he
    have := h (Keyed.view e.1)
    unfold content at this
    rw [Counter.get_of_mem hh.1 he] at this
    simpa using this

/-- the tiles of an added multiset, listed -/
def addedTiles (add : Kind → Int) : List Tile :=
  allKinds.flatMap (fun k => List.replicate (add k).toNat (plain k))

theorem count_flatMap_plain (add : Kind → Int) (l : List Kind) (hl : l.Nodup) (k : Kind) :
    ((l.flatMap (fun k => List.replicate (add k).toNat (plain k))).map Tile.view).count k =
      if k ∈ l then (add k).toNat else 0 := by
  induction l with
  | nil => simp
  | cons a l ih =>
    rw [List.nodup_cons] at hl
    rw [List.flatMap_cons, List.map_append, List.count_append, ih hl.2]
    simp only [List.map_replicate, view_plain, List.count_replicate, List.mem_cons]
    by_cases ha : a = k
    · subst ha; simp [hl.1]
    · have : ¬ k = a := fun e => ha e.symm
      simp [ha, this]

theorem count_addedTiles {add : Kind → Int} (h0 : ∀ k, 0 ≤ add k)
    (hv : ∀ k, ¬ ValidKind k → add k = 0) (k : Kind) :
    (((addedTiles add).map Tile.view).count k : Int) = add k := by
  unfold addedTiles
  rw [count_flatMap_plain add allKinds nodup_allKinds]
  split
  · have := h0 k; omega
  · rename_i h
    rw [hv k (fun h' => h (mem_allKinds.2 h'))]; rfl

theorem addedTiles_mem {add : Kind → Int} {t : Tile} (h : t ∈ addedTiles add) : t ∈ ALL_TILES := by
  unfold addedTiles at h
  obtain ⟨k, hk, ht⟩ := List.mem_flatMap.1 h
  have := List.eq_of_mem_replicate ht
  rw [allTiles_eq, this]
  exact List.mem_map.2 ⟨k, hk, rfl⟩

theorem length_addedTiles {add : Kind → Int} (h0 : ∀ k, 0 ≤ add k)
    (hv : ∀ k, ¬ ValidKind k → add k = 0) : ((addedTiles add).length : Int) = sumK add := by
  rw [← total_ofIter_real (l := addedTiles add) (fun t ht => allTiles_real t (addedTiles_mem ht))]
  exact sumK_congr (fun k _ => count_addedTiles h0 hv k)

theorem bruteTest_iff {w : Pattern} {hand : TileSet} (hh : HandOK hand) {l : List Tile}
    (hl : ∀ t ∈ l, RealTile t) :
    bruteTest w hand true l = true ↔
      AtMostFour (fun k => content hand k + ((l.map Tile.view).count k : Int)) ∧
      Wins w (fun k => content hand k + ((l.map Tile.view).count k : Int)) := by
  have hok : HandOK (TileSet.add hand (Counter.ofIter l)) := HandOK_add hh (HandOK_ofIter hl)
  have he : content (TileSet.add hand (Counter.ofIter l)) =
      fun k => content hand k + ((l.map Tile.view).count k : Int) := by
    funext k; exact content_added hh l k
  unfold bruteTest
  simp only [Bool.true_and, Bool.and_eq_true]
  rw [all_le_four hok, winMatch_iff hok, he]

theorem any_bruteTest {w : Pattern} {hand : TileSet} (hh : HandOK hand) (n : Nat) :
    (productRepeat ALL_TILES n).any (bruteTest w hand true) = true ↔ CanReach w (content hand) n := by
  rw [List.any_eq_true]
  constructor
  · rintro ⟨l, hl, ht⟩
    obtain ⟨h1, h2⟩ := mem_productRepeat.1 hl
    have hr : ∀ t ∈ l, RealTile t := fun t ht => allTiles_real t (h2 t ht)
    obtain ⟨h3, h4⟩ := (bruteTest_iff hh hr).1 ht
    refine ⟨fun k => ((l.map Tile.view).count k : Int), fun k => by simp, fun k hk => ?_, ?_, h3, h4⟩
    · show ((l.map Tile.view).count k : Int) = 0
      rw [count_eq_zero_of_not_real hr hk]; rfl
    · rw [total_ofIter_real hr, h1]
  · rintro ⟨add, h0, hv, hs, h4, hw⟩
    have hr : ∀ t ∈ addedTiles add, RealTile t := fun t ht => allTiles_real t (addedTiles_mem ht)
    refine ⟨addedTiles add, mem_productRepeat.2 ⟨?_, fun t ht => addedTiles_mem ht⟩, ?_⟩
    · have := length_addedTiles h0 hv
      omega
    · rw [bruteTest_iff hh hr]
      have : (fun k => content hand k + (((addedTiles add).map Tile.view).count k : Int)) =
          fun k => content hand k + add k := by
        funext k; rw [count_addedTiles h0 hv]
      rw [this]
      exact ⟨h4, hw⟩

theorem bruteLoop_spec {w : Pattern} {hand : TileSet} (hh : HandOK hand) (fuel need0 : Nat) (n : Int) :
    bruteLoop w hand true fuel need0 = some n ↔
      ∃ m : Nat, need0 ≤ m ∧ m < need0 + fuel ∧ CanReach w (content hand) m ∧
        (∀ m', need0 ≤ m' → m' < m → ¬ CanReach w (content hand) m') ∧ n = (m : Int) - 1 := by
  induction fuel generalizing need0 with
  | zero =>
    simp only [bruteLoop]
    constructor
    · simp
    · rintro ⟨m, h1, h2, _⟩; omega
  | succ fuel ih =>
    simp only [bruteLoop]
    by_cases he : (productRepeat ALL_TILES need0).any (bruteTest w hand true) = true
    · rw [if_pos he]
      have hr := (any_bruteTest hh need0).1 he
      constructor
      · intro h
        simp only [Option.some.injEq] at h
        exact ⟨need0, by omega, by omega, hr, fun m' a b => by omega, h.symm⟩
      · rintro ⟨m, h1, h2, h3, h4, rfl⟩
        have : m = need0 := by
          apply Classical.byContradiction
          intro hne
          exact h4 need0 (by omega) (by omega) hr
        rw [this]
    · rw [if_neg he, ih (need0 + 1)]
      have hr : ¬ CanReach w (content hand) need0 := fun h => he ((any_bruteTest hh need0).2 h)
      constructor
      · rintro ⟨m, h1, h2, h3, h4, h5⟩
        refine ⟨m, by omega, by omega, h3, fun m' a b => ?_, h5⟩
        by_cases h : m' = need0
        · rw [h]; exact hr
        · exact h4 m' (by omega) b
      · rintro ⟨m, h1, h2, h3, h4, h5⟩
        have : m ≠ need0 := by rintro rfl; exact hr h3
        exact ⟨m, by omega, by omega, h3, fun m' a b => h4 m' (by omega) b, h5⟩

theorem content_reSort {hand : TileSet} (hh : HandOK hand) : content (reSort hand) = content hand := by
  funext k; exact get_reSort hh.1 k

theorem bruteBefore_spec {w : Pattern} {hand : TileSet} (hh : HandOK hand) (fuel : Nat) (n : Int) :
    bruteBefore w true fuel hand = some n ↔
      (Wins w (content hand) ∧ n = -1) ∨
      (¬ Wins w (content hand) ∧ ∃ m : Nat, 1 ≤ m ∧ m < 1 + fuel ∧ CanReach w (content hand) m ∧
        (∀ m', 1 ≤ m' → m' < m → ¬ CanReach w (content hand) m') ∧ n = (m : Int) - 1) := by
  unfold bruteBefore
  by_cases hw : winMatch w hand = true
  · rw [if_pos hw]
    have := (winMatch_iff hh).1 hw
    simp [this]
    omega
  · rw [if_neg hw]
    have hnw : ¬ Wins w (content hand) := fun h => hw ((winMatch_iff hh).2 h)
    rw [bruteLoop_spec hh.reSort, content_reSort hh]
    simp [hnw]

/-- For hands with at most four copies of each kind, both notions of the waiting step agree. -/
theorem bruteBefore_step {w : Pattern} {hand : TileSet} (hh : HandOK hand)
    (h4 : AtMostFour (content hand)) (fuel : Nat) (n : Int) :
    bruteBefore w true fuel hand = some n ↔ IsStep true w (content hand) n ∧ n < fuel := by
  have hnn : ∀ k, 0 ≤ content hand k := hh.get_nonneg
  rw [bruteBefore_spec hh]
  by_cases hw : Wins w (content hand)
  · have hst := neg_one_of_wins (lim := true) hnn (fun _ => h4) hw
    constructor
    · rintro (⟨_, rfl⟩ | ⟨h, _⟩)
      · exact ⟨hst, by omega⟩
      · exact absurd hw h
    · rintro ⟨h, _⟩
      exact Or.inl ⟨hw, h.unique hst⟩
  · have hpos : ∀ D, Legal w D → 1 ≤ deficit D (content hand) := by
      intro D h1
      have := deficit_nonneg D (content hand)
      apply Classical.byContradiction
      intro h0
      exact hw ⟨D, h1, (deficit_zero_iff h1.proper hnn).1 (by omega)⟩
    constructor
    · rintro (⟨h, _⟩ | ⟨_, m, h1, h2, h3, h5, rfl⟩)
      · exact absurd h hw
      · have hleast : ∀ D, Legal w D → Feasible true D → (m : Int) ≤ deficit D (content hand) := by
          intro D a b
          apply Int.not_lt.1
          intro hlt
          have := hpos D a
          exact h5 _ (by omega) (by omega) (deficit_canReach hnn h4 a b)
        obtain ⟨D, a, b, c⟩ := canReach_deficit h3
        have := hleast D a b
        exact ⟨⟨⟨D, a, b, by omega⟩, fun D' a' b' => by have := hleast D' a' b'; omega⟩, by omega⟩
    · rintro ⟨⟨⟨D, a, b, c⟩, h6⟩, h7⟩
      have hD := hpos D a
      have hr := deficit_canReach hnn h4 a b
      refine Or.inr ⟨hw, (deficit D (content hand)).toNat, by omega, by omega, hr, ?_, by omega⟩
      intro m' h8 h9 h10
      obtain ⟨D', a', b', c'⟩ := canReach_deficit h10
      have := h6 D' a' b'
      omega

theorem content_add_one {hand : TileSet} (hh : HandOK hand) (t : Tile) :
    content (TileSet.add hand (Counter.ofIter [t])) = plus (content hand) t.view := by
  funext k
  rw [content_added hh]
  unfold plus
  by_cases hk : t.view = k
  · subst hk; simp
  · have : ¬ k = t.view := fun e => hk e.symm
    simp [hk, this]

theorem atMostFour_plus {h : Kind → Int} (h4 : AtMostFour h) {t : Kind} (ht : h t < 4) :
    AtMostFour (plus h t) := by
  intro k
  unfold plus
  split
  · rename_i he; subst he; omega
  · exact h4 k

theorem bruteUsefulLoop_spec {w : Pattern} {hand : TileSet} (hh : HandOK hand)
    (h4 : AtMostFour (content hand)) (fuel : Nat) {sw : Int} (hsw : IsStep true w (content hand) sw)
    (l : List Tile) (hl : ∀ t ∈ l, RealTile t) (hnd : (kindsOf l).Nodup) (s : List Tile)
    (hs : bruteUsefulLoop w true fuel hand sw l = some s) :
    s.Sublist l ∧ ∀ t ∈ l, t ∈ s ↔ UsefulKind w (content hand) t.view := by
  induction l generalizing s with
  | nil => simp [bruteUsefulLoop] at hs; subst hs; simp
  | cons t l ih =>
    have hl' : ∀ x ∈ l, RealTile x := fun x hx => hl x (by simp [hx])
    simp only [kindsOf, List.map_cons, List.nodup_cons] at hnd
    have hrt := hl t (by simp)
    have hnot : ∀ s' : List Tile, s'.Sublist l → t ∉ s' := by
      intro s' hs' hm
      exact hnd.1 (List.mem_map.2 ⟨t, hs'.subset hm, rfl⟩)
    simp only [bruteUsefulLoop] at hs
    split at hs
    · rename_i hlt
      have hlt' : content hand t.view < 4 := by simpa [content, view_def] using hlt
      split at hs
      · simp at hs
      · rename_i n hn
        have hok : HandOK (TileSet.add hand (Counter.ofIter [t])) :=
          HandOK_add hh (HandOK_ofIter (by simpa using hrt))
        have h4' : AtMostFour (content (TileSet.add hand (Counter.ofIter [t]))) := by
          rw [content_add_one hh]; exact atMostFour_plus h4 hlt'
        obtain ⟨hn1, _⟩ := (bruteBefore_step hok h4' fuel n).1 hn
        rw [content_add_one hh] at hn1
        split at hs
        · simp at hs
        · rename_i r hr
          obtain ⟨i1, i2⟩ := ih hl' hnd.2 r hr
          have hu : UsefulKind w (content hand) t.view ↔ n < sw := by
            constructor
            · rintro ⟨_, _, a, b, ha, hb, hab⟩
              rw [ha.unique hsw, hb.unique hn1] at hab
              exact hab
            · intro hlt2
              exact ⟨hrt.1, hlt', sw, n, hsw, hn1, hlt2⟩
          simp only [Option.some.injEq] at hs
          subst hs
          by_cases hns : n < sw
          · rw [if_pos hns]
            refine ⟨i1.cons_cons t, ?_⟩
            intro x hx
            rcases List.mem_cons.1 hx with rfl | hx
            · simp [hu, hns]
            · rw [List.mem_cons]
              constructor
              · rintro (h | h)
                · exact absurd (List.mem_map.2 ⟨x, hx, by rw [h]⟩) hnd.1
                · exact (i2 x hx).1 h
              · intro h; exact Or.inr ((i2 x hx).2 h)
          · rw [if_neg hns]
            refine ⟨i1.trans (List.sublist_cons_self t l), ?_⟩
            intro x hx
            rcases List.mem_cons.1 hx with rfl | hx
            · rw [hu]
              exact ⟨fun h => absurd h (hnot _ i1), fun h => absurd h hns⟩
            · exact i2 x hx
    · rename_i hge
      have hge' : ¬ content hand t.view < 4 := by simpa [content, view_def] using hge
      obtain ⟨i1, i2⟩ := ih hl' hnd.2 s hs
      refine ⟨i1.trans (List.sublist_cons_self t l), ?_⟩
      intro x hx
      rcases List.mem_cons.1 hx with rfl | hx
      · constructor
        · intro h; exact absurd h (hnot _ i1)
        · rintro ⟨_, h, _⟩; exact absurd h hge'
      · exact i2 x hx

theorem bruteUseful_spec {w : Pattern} {hand : TileSet} (hh : HandOK hand)
    (h4 : AtMostFour (content hand)) (fuel : Nat) (s : List Tile)
    (hs : bruteUseful w true fuel hand = some s) :
    (kindsOf s).Nodup ∧ ∀ k, k ∈ kindsOf s ↔ UsefulKind w (content hand) k := by
  unfold bruteUseful at hs
  split at hs
  · simp at hs
  · rename_i sw hsw
    obtain ⟨h1, _⟩ := (bruteBefore_step hh h4 fuel sw).1 hsw
    have hnd : (kindsOf ALL_TILES).Nodup := by
      unfold kindsOf; rw [allTiles_view]; exact nodup_allKinds
    obtain ⟨i1, i2⟩ := bruteUsefulLoop_spec hh.reSort (by rw [content_reSort hh]; exact h4) fuel
      (by rw [content_reSort hh]; exact h1) ALL_TILES allTiles_real hnd s hs
    rw [content_reSort hh] at i2
    refine ⟨(i1.map _).nodup hnd, fun k => ⟨?_, ?_⟩⟩
    · intro hk
      obtain ⟨t, ht, rfl⟩ := List.mem_map.1 hk
      exact (i2 t (i1.subset ht)).1 ht
    · intro hk
      obtain ⟨t, ht, he⟩ := mem_allTiles hk.1
      refine List.mem_map.2 ⟨t, (i2 t ht).2 (by rw [he]; exact hk), he⟩

/-- With enough rounds it returns. -/
theorem bruteUseful_returns {w : Pattern} {hand : TileSet} (hh : HandOK hand)
    (h4 : AtMostFour (content hand)) {n : Int} (hn : IsStep true w (content hand) n) (fuel : Nat)
    (hf : n < fuel) : ∃ s, bruteUseful w true fuel hand = some s := by
  unfold bruteUseful
  rw [(bruteBefore_step hh h4 fuel n).2 ⟨hn, hf⟩]
  simp only
  have hc := content_reSort hh
  have : ∀ l : List Tile, (∀ t ∈ l, RealTile t) →
      ∃ s, bruteUsefulLoop w true fuel (reSort hand) n l = some s := by
    intro l
    induction l with
    | nil => intro _; exact ⟨[], rfl⟩
    | cons t l ih =>
      intro hl
      obtain ⟨s, hs⟩ := ih (fun x hx => hl x (by simp [hx]))
      simp only [bruteUsefulLoop, hs]
      split
      · rename_i hlt
        have hlt' : content hand t.view < 4 := by
          have : content (reSort hand) t.view < 4 := by simpa [content, view_def] using hlt
          rwa [hc] at this
        have hrt := hl t (by simp)
        have hok : HandOK (TileSet.add (reSort hand) (Counter.ofIter [t])) :=
          HandOK_add hh.reSort (HandOK_ofIter (by simpa using hrt))
        have hcc : content (TileSet.add (reSort hand) (Counter.ofIter [t])) = plus (content hand) t.view := by
          rw [content_add_one hh.reSort, hc]
        obtain ⟨D, h1, h2, _⟩ := hn.1
        obtain ⟨n', hn'⟩ := exists_isStep (lim := true) (plus (content hand) t.view) ⟨D, h1, h2⟩
        have := isStep_plus hrt.1 hn hn'
        rw [(bruteBefore_step hok (by rw [hcc]; exact atMostFour_plus h4 hlt') fuel n').2
          ⟨by rw [hcc]; exact hn', by omega⟩]
        exact ⟨_, rfl⟩
      · exact ⟨s, rfl⟩
  exact this ALL_TILES allTiles_real

/-! ### ignore_4counts=False -/

theorem bruteLoop_false (w : Pattern) (hand : TileSet) (fuel need0 : Nat) :
    bruteLoop w hand false fuel need0 = none := by
  induction fuel generalizing need0 with
  | zero => rfl
  | succ fuel ih =>
    simp only [bruteLoop]
    rw [if_neg, ih]
    rw [List.any_eq_true]
    rintro ⟨l, _, h⟩
    simp [bruteTest] at h

theorem bruteUsefulLoop_false (w : Pattern) (fuel : Nat) (hand : TileSet) (sw : Int) (l : List Tile) :
    bruteUsefulLoop w false fuel hand sw l = some [] := by
  induction l with
  | nil => rfl
  | cons t l ih => simp [bruteUsefulLoop, ih]

end Verif.Proofs
