import Verif.Proofs.WholeRow
import Verif.Props.Html

/-! Property C96: what the page says about a discard, in terms of the game. -/
namespace Verif.Props
open Verif.Py Verif.Model Verif.Spec Verif.Spec.Html Verif.Proofs

theorem shownRow_blue (float : Rat → Str) (i : Nat) (r : RoundReasoning) (h : r.somebodyRichii = true) : (shownRow float i r).style =
    "background-color: ".toList ++ " rgba(0, 0, 255, ".toList ++ float r.wrongRate ++ ");".toList := by
  unfold shownRow
  simp only
  generalize "background-color: ".toList = a
  generalize " rgba(0, 0, 255, ".toList = b
  generalize ");".toList = c
  rw [h, if_pos rfl, List.append_assoc, List.append_assoc]

theorem shownRow_red (float : Rat → Str) (i : Nat) (r : RoundReasoning) (h : r.somebodyRichii = false) : (shownRow float i r).style =
    "background-color: ".toList ++ " rgba(255, 0, 0, ".toList ++ float r.wrongRate ++ ");".toList := by
  unfold shownRow
  simp only
  generalize "background-color: ".toList = a
  generalize " rgba(255, 0, 0, ".toList = b
  generalize ");".toList = c
  rw [h, if_neg (by simp), List.append_assoc, List.append_assoc]

theorem shownRow_summary (float : Rat → Str) (i : Nat) (r : RoundReasoning) (x y : RItem) (l : List NItem) (h1 : r.expected = x.norm :: l)
    (h2 : r.yourChoice = y.norm) (c d : Nat) (h3 : x.count = d) (h4 : y.count = c) : (shownRow float i r).summary =
    [["Expected".toList], stepsText x.step d, ["Actual".toList], stepsText y.step c] := by
  unfold shownRow shownSteps stepsText
  simp only [h1, h2, List.headD_cons, RItem.norm, h3, h4]

theorem shownRow_style (float : Rat → Str) (i : Nat) (r : RoundReasoning) (game : List Move)
    (h : r.somebodyRichii = true ↔ ∃ m ∈ game, m.event.tag = "REACH".toList) : RowStyle float game r.wrongRate (shownRow float i r).style :=
  ⟨fun hre => shownRow_blue float i r (h.2 hre), fun hre => shownRow_red float i r (by rw [Bool.eq_false_iff]; exact fun e => hre (h.1 e))⟩

theorem any_reach (seed : List Int) (hands : Fin 4 → List Int) (more : List (Str × Str)) (pre : List Move) :
    (pre.any (fun m => decide (m.event.tag = "REACH".toList)) = true) ↔
      ∃ m ∈ Move.deal seed hands more :: pre, m.event.tag = "REACH".toList := by
  rw [List.any_eq_true]
  constructor
  · rintro ⟨m, hm, he⟩; exact ⟨m, by simp [hm], by simpa using he⟩
  · rintro ⟨m, hm, he⟩
    rcases List.mem_cons.1 hm with rfl | hm
    · simp [Move.event] at he
    · exact ⟨m, hm, by simpa using he⟩

theorem shownRow_rowOf {iter : List Int → List Int} (hi : ∀ l, (iter l).Perm l) (float : Rat → Str) {p : Fin 4} {four : Bool}
    {seed : List Int} {hands : Fin 4 → List Int} {more : List (Str × Str)} {ms : List Move} (h : FairGame p seed hands more ms)
    {pre : List Move} {t : Nat} {post : List Move} (e : ms = pre ++ .discard p t :: post) {r : RoundReasoning}
    (hr : reportAt iter p four (Move.deal seed hands more :: pre, t) = .ok r) (index : Nat) :
    RowOf float p four (Move.deal seed hands more :: pre) t index (shownRow float (index + 1) r) := by
  obtain ⟨hand, inv, h1, h2, h3, h4, h5, h6, h7, h8, h9, h10, h11⟩ := report_inputs iter four h e
  rw [hr] at h1
  cases hd : discardReasoning iter p (Move.discard p t).event hand inv (finalMelds (meldsOf p pre)) with
  | error x => rw [hd] at h1; cases x <;> simp [inGenerator, Except.map] at h1
  | ok r0 =>
  rw [hd] at h1
  simp only [inGenerator, Except.map, Except.ok.injEq] at h1
  have hpd : playerDiscard p (Move.discard p t).event = some (t : Int) := by
    rw [playerDiscard_move p (m := .discard p t) trivial]; simp
  have hk := handKinds_eq h2.1 h3
  have hw : winsFor p (Move.deal seed hands more :: pre) = checkedWins (meldCount (finalMelds (meldsOf p pre))) := rfl
  have hrich := any_reach seed hands more pre
  obtain ⟨⟨tiles, t1, t2, t3, _, t4'⟩, t5, t6⟩ := C74_hand iter hi p _ hand h2.2 inv _ r0 hd
  obtain ⟨a, best, more', m, tile, items, your, rate, strs, ha, hex, hp', ht', hit, hy, hrate, _, e'⟩ := discardReasoning_inv hd
  rw [hpd] at hp'
  cases hp'
  obtain ⟨s1, s2, s3, s4⟩ := tileOf_spec (h2.2 t h4)
  rw [s1] at ht'
  cases ht'
  obtain ⟨z0, z1, z2, z3, z4, z5, z6⟩ := your_choice hi h2.2 ha h4 hit hy
  obtain ⟨tiles', lists, _, _, hinv, _⟩ := analyse_inv ha
  have hne : a.merged ≠ [] := by
    intro hm'
    rw [(expected_eq a.merged).1 hm'] at hex
    cases hex
  rw [(expected_eq a.merged).2 hne, Except.ok.injEq] at hex
  have hb : best ∈ a.merged := by
    have : best ∈ a.merged.filter (fun x => decide (BestItem a.merged x)) := by rw [hex]; simp
    exact (List.mem_filter.1 this).1
  have y1 : r0.yourChoice = your.norm := by rw [e']
  have y2 : r0.expected = (best :: more').map RItem.norm := by rw [e']
  have hup := C62_upper iter hi p _ hand h2.2 inv (by omega) _ r0 hd t hpd h4
  have hst := C62_steps iter hi p _ hand h2.2 inv _ r0 hd t hpd h4
  subst h1
  refine ⟨rfl, ⟨tiles, ?_, t2, ?_, ?_⟩, ?_, ?_⟩
  · show tilePictures "big" (r0.melds.flatten ++ r0.hand) = _
    rw [t1]
    refine congrArg (tilePictures "big") (congrArg (· ++ tiles.map Tile.str) ?_)
    have : r0.melds = (finalMelds (meldsOf p pre)).map (fun m => (m.selfTiles ++ m.borrowedTiles).map numberName) := by
      apply List.ext_getElem?
      intro i
      rw [List.getElem?_map]
      cases hm : (finalMelds (meldsOf p pre))[i]? with
      | none =>
        rw [Option.map_none, List.getElem?_eq_none_iff, t5]
        exact List.getElem?_eq_none_iff.1 hm
      | some m =>
        obtain ⟨names, n1, n2⟩ := t6 i m hm
        rw [tileNames_numbers (h6 m (List.mem_of_getElem? hm))] at n2
        cases n2
        exact n1
    rw [this, ← List.flatMap_def]
    rfl
  · rw [← hk]; exact t3
  · intro x hx hax
    obtain ⟨n, hm, e⟩ := t4' x hx hax
    rw [(tileOf_spec (h2.2 n hm)).1, Except.ok.injEq] at e
    exact redHeld_of h2.2 h3 (fun _ => ⟨n, hm, e⟩) hax
  · show tilePictures "big" r0.yourChoice.discard = _
    rw [y1]
    show tilePictures "big" [your.discard.str] = _
    have := number_name (h2.2 t h4)
    rw [s1] at this
    simp only [Except.map, Except.ok.injEq] at this
    rw [z0, this]
  · obtain ⟨m1, m2⟩ := merged_steps hi h2.2 ha hb
    have hmi := merged_items hi h2.2 ha best hb
    obtain ⟨d, hd'⟩ : ∃ d : Nat, best.count = d := ⟨best.count.toNat, by have := (item_count hmi.1 hmi.2.1).1; omega⟩
    obtain ⟨c, hc⟩ : ∃ c : Nat, your.count = c := ⟨your.count.toNat, by have := (item_count z1 z2).1; omega⟩
    have y4 : rate = r0.wrongRate := by rw [e']
    have hst' : your.step = best.step ∨ your.step = best.step + 1 := by
      have := hst best.norm (by rw [y2]; simp)
      rw [y1] at this
      exact this
    have hN : a.invisible.length = unseenCount p four (Move.deal seed hands more :: pre) := by
      rw [hinv]; exact unseenCount_eq h7 h10 h11
    refine ⟨(tileOf t).view, your.step, best.step, c, d, rate, _, (s3 _).1 rfl, ?_, ?_, ?_, hst', ?_, ?_, ?_, ?_, roundDouble_nearest _, ?_⟩
    · exact shownRow_summary float (index + 1) { r0 with somebodyRichii := _ } best your _ y2 y1 c d hd' hc
    · unfold HandStep; rw [hw, ← hk]; exact ⟨m1, m2⟩
    · unfold StepAfter; rw [hw, ← hk]; exact ⟨z4, z5⟩
    · intro hnr
      have hkinds : ∀ u, u ∈ your.useful.map Tile.view ↔ UsefulAfter p (Move.deal seed hands more :: pre) (tileOf t).view your.step u := by
        intro u; rw [z6]; unfold UsefulAfter; rw [hw, ← hk]
      have hnd' : a.invisible.Nodup := by rw [hinv]; exact setSub_nodup h7
      have h0' : TileNumbers a.invisible := by rw [hinv]; exact setSub_numbers h9
      have hcount := count_plain hnd' h0' z1 (plain_useful h2.2 h3 z3 (fun u hu => hnr u ((hkinds u).1 hu))) z2
      rw [hc, hinv] at hcount
      have := unseenCopies_eq h7 h10 (your.useful.map Tile.view) (UsefulAfter p (Move.deal seed hands more :: pre) (tileOf t).view your.step) hkinds
      rw [← this]
      exact_mod_cast hcount
    · rw [y4]
      exact shownRow_style float (index + 1) { r0 with somebodyRichii := _ } _ hrich
    · rw [y4]; exact hup.1
    · rcases hst' with hs | hs
      · have := (wrongRate_same hrate hs).1
        omega
      · have := (wrongRate_next hrate hs).1
        omega
    · rcases hst' with hs | hs
      · rw [(wrongRate_same hrate hs).2, if_pos hs, hc, hd']
        simp only [Int.cast_natCast, mul_one]
        exact roundDouble_nearest _
      · rw [(wrongRate_next hrate hs).2.2, if_neg (by omega), hc, hd', hN]
        simp only [Int.cast_natCast]
        exact roundDouble_nearest _

/-- the tiles useful, as `norm` sorts them -/
theorem sorted_useful {x : RItem} (hu : (x.useful.map Tile.view).Nodup) (ha : ∀ t ∈ x.useful, t.aka = false) :
    ((pySorted Tile.lt x.useful).map Tile.view).Pairwise (fun a b => Kind.lt a b) ∧
    (∀ u, u ∈ (pySorted Tile.lt x.useful).map Tile.view ↔ u ∈ x.useful.map Tile.view) ∧
    (pySorted Tile.lt x.useful).map Tile.str = ((pySorted Tile.lt x.useful).map Tile.view).map kindName := by
  have hp := pySorted_perm (lt := Tile.lt) x.useful
  have hs := (pySorted_filter (lt := Tile.lt) (q := fun _ => false)
    (by
      intro a b c h
      unfold Tile.lt at *
      simp only [decide_eq_true_eq] at *
      rcases Kind.lt_tri a.view b.view with h1 | h1 | h1
      · exact Or.inl h1
      · right; rw [← h1]; exact h
      · exact Or.inr (Kind.lt_trans h1 h))
    (by
      intro a b h
      unfold Tile.lt at *
      simp only [decide_eq_true_eq, decide_eq_false_iff_not] at *
      exact Kind.lt_asymm h) (by simp) x.useful).1
  refine ⟨?_, fun u => (hp.map Tile.view).mem_iff, ?_⟩
  · have hn : ((pySorted Tile.lt x.useful).map Tile.view).Nodup := (hp.map Tile.view).nodup_iff.2 hu
    rw [List.pairwise_map]
    rw [List.nodup_iff_pairwise_ne, List.pairwise_map] at hn
    refine (hs.and hn).imp ?_
    intro a b hab
    obtain ⟨h1, h2⟩ := hab
    unfold Tile.lt at h1
    simp only [decide_eq_false_iff_not] at h1
    rcases Kind.lt_tri a.view b.view with h | h | h
    · exact h
    · exact absurd h h2
    · exact absurd h h1
  · rw [List.map_map]
    apply List.map_congr_left
    intro t ht
    exact kind_name (ha t (hp.mem_iff.1 ht))

theorem shownItem_norm {x : RItem} {c : Nat} (hc : x.count = c) (hu : (x.useful.map Tile.view).Nodup)
    (ha : ∀ t ∈ x.useful, t.aka = false) : shownItem x.norm =
    ⟨tilePictures "small" [x.discard.str], ("Discard".toList ++ [Char.ofNat 160]) :: stepsText x.step c,
      tilePictures "small" (((pySorted Tile.lt x.useful).map Tile.view).map kindName)⟩ := by
  rw [← (sorted_useful hu ha).2.2]
  unfold shownItem shownSteps stepsText
  rw [← hc]
  rfl

theorem tilePictures_mem {size : String} {t : Str} {l : List Str} (h : ∀ x ∈ tilePictures size [t], x ∈ tilePictures size l) : t ∈ l := by
  obtain ⟨t', ht, e⟩ := List.mem_map.1 (h _ (by unfold tilePictures; exact List.mem_singleton.2 rfl))
  rw [List.append_right_inj, List.append_left_inj] at e
  rwa [← e]

theorem shownRow_core {iter : List Int → List Int} (hi : ∀ l, (iter l).Perm l) (float : Rat → Str) {p : Fin 4} {four : Bool}
    {game : List Move} {hand : List Int} {inv : List InvElem} (hnd : hand.Nodup) (hh : ∀ n ∈ hand, 0 ≤ n ∧ n < 136)
    (hm : ∀ x, x ∈ hand ↔ Held p x game) (h7 : inv.Nodup) (h9 : ∀ n, InvElem.num n ∈ inv → 0 ≤ n)
    (hcop : ∀ (ks : List Kind) (useful : Kind → Prop), (∀ u, u ∈ ks ↔ useful u) →
      unseenOf (setSub inv (hand.map .num)) ks = unseenCopies p four game useful)
    (hnr : NoRedUseful p game) {melds : List Meld} (hw : winsFor p game = checkedWins (meldCount melds)) {ev : Event} {r0 : RoundReasoning}
    (hd : discardReasoning iter p ev hand inv melds = .ok r0) {n : Int} {a : Analysis} (ha : analyse iter hand inv melds = .ok a)
    (hright : RightItems (checkedWins (meldCount melds)) (heldKinds hand) n a.merged) (hstep : HandStep p game n) (index : Nat) (rich : Bool) :
    AdviceOn p four game (shownRow float index { r0 with somebodyRichii := rich }) n (fun k => k ∈ a.merged.map (fun x => x.discard.view)) := by
  have hk := handKinds_eq hnd hm
  rw [← hw, hk] at hright
  obtain ⟨d2, d4⟩ := hright
  obtain ⟨a', best, more', m, tile, items, your, rate, strs, ha', hex, hp', ht', hit, hy, _, _, e'⟩ := discardReasoning_inv hd
  rw [ha] at ha'
  cases ha'
  obtain ⟨tiles', lists, _, _, hinv, _⟩ := analyse_inv ha
  have hne : a.merged ≠ [] := by
    intro hm'
    rw [(expected_eq a.merged).1 hm'] at hex
    cases hex
  rw [(expected_eq a.merged).2 hne, Except.ok.injEq] at hex
  have hb : best ∈ a.merged ∧ BestItem a.merged best := by
    have : best ∈ a.merged.filter (fun x => decide (BestItem a.merged x)) := by rw [hex]; simp
    simpa using this
  have hmi := merged_from hi hh ha
  have hnd' : a.invisible.Nodup := by rw [hinv]; exact setSub_nodup h7
  have h0' : TileNumbers a.invisible := by rw [hinv]; exact setSub_numbers h9
  have usefulAfter : ∀ x ∈ a.merged, ∀ u, u ∈ x.useful.map Tile.view ↔ UsefulAfter p game x.discard.view n u :=
    fun x hx => (d4 x hx).2.2.2
  have plain : ∀ x ∈ a.merged, ∀ t ∈ x.useful, t.aka = false := fun x hx =>
    plain_useful hh hm (hmi x hx).2.2.2 (fun u hu => hnr n hstep _ (d4 x hx).1 u ((usefulAfter x hx u).1 hu))
  have names : ∀ x ∈ a.merged, Names p game x.discard.view x.discard.str := fun x hx => names_of hh hm (hmi x hx).2.2.1
  have count : ∀ x ∈ a.merged, x.count = unseenCopies p four game (UsefulAfter p game x.discard.view n) := by
    intro x hx
    rw [count_plain hnd' h0' (hmi x hx).1 (plain x hx) (hmi x hx).2.1, hinv]
    exact congrArg Nat.cast (hcop (x.useful.map Tile.view) _ (usefulAfter x hx))
  have d4 : ∀ x ∈ a.merged, x.step = n := fun x hx => (d4 x hx).2.1
  have y2 : r0.expected = (best :: more').map RItem.norm := by rw [e']
  have y1 : r0.yourChoice = your.norm := by rw [e']
  have y3 : r0.merged = (pySorted keyLt a.merged).map RItem.norm := by rw [e']
  have hperm := pySorted_perm (lt := keyLt) a.merged
  refine ⟨⟨unseenCopies p four game (UsefulAfter p game best.discard.view n), (best :: more').map (fun x => x.discard.view),
    (best :: more').map (fun x => x.discard.str), by simp, ?_, ?_, ?_, ?_, ?_⟩, ⟨(pySorted keyLt a.merged).map (fun x => x.discard.view), ?_, ?_, ?_, ?_⟩⟩
  · rw [← hex]
    exact d2.sublist (List.filter_sublist.map _)
  · rw [← hex, List.forall₂_map_left_iff, List.forall₂_map_right_iff, List.forall₂_same]
    exact fun x hx => names x (List.mem_filter.1 hx).1
  · show tilePictures "big" (r0.expected.flatMap (fun x => x.discard)) = _
    rw [y2]
    congr 1
    rw [List.flatMap_map]
    generalize best :: more' = l
    induction l with
    | nil => rfl
    | cons x l ih =>
      rw [List.flatMap_cons, List.map_cons, ih]
      rfl
  · show some (shownSteps (r0.expected.headD r0.yourChoice)) = _
    rw [y2]
    show some (shownSteps best.norm) = _
    unfold shownSteps stepsText
    rw [← count best hb.1, ← d4 best hb.1]
    rfl
  · intro k
    rw [← hex]
    constructor
    · intro hkm
      obtain ⟨x, hx, rfl⟩ := List.mem_map.1 hkm
      obtain ⟨hx1, hx2⟩ := List.mem_filter.1 hx
      have hx2 : BestItem a.merged x := by simpa using hx2
      refine ⟨List.mem_map.2 ⟨x, hx1, rfl⟩, ?_, ?_⟩
      · have e1 := hx2 best hb.1
        have e2 := hb.2 x hx1
        have e3 := count x hx1
        have e4 := count best hb.1
        omega
      · intro j hj
        obtain ⟨y, hy, rfl⟩ := List.mem_map.1 hj
        have e1 := hb.2 y hy
        have e2 := d4 best hb.1
        have e3 := d4 y hy
        have e4 := count y hy
        have e5 := count best hb.1
        omega
    · rintro ⟨k1, k3, k4⟩
      obtain ⟨x, hx, rfl⟩ := List.mem_map.1 k1
      refine List.mem_map.2 ⟨x, List.mem_filter.2 ⟨hx, ?_⟩, rfl⟩
      simp only [decide_eq_true_eq]
      intro y hy
      right
      have e2 := d4 x hx
      have e3 := d4 y hy
      have e4 := count y hy
      have e5 := count x hx
      have e6 := hb.2 y hy
      have e7 := count best hb.1
      have e8 := d4 best hb.1
      omega
  · exact ((hperm.map _).nodup_iff).2 d2
  · intro k
    rw [(hperm.map _).mem_iff]
  · rw [List.pairwise_map]
    have hs := (pySorted_filter (lt := keyLt) (q := fun _ => false) keyLt_neg keyLt_asymm (by simp) a.merged).1
    have hall : (pySorted keyLt a.merged).Pairwise (fun x y => x ∈ a.merged ∧ y ∈ a.merged) := by
      rw [List.pairwise_iff_forall_sublist]
      intro x y hxy
      have := hxy.subset
      exact ⟨hperm.mem_iff.1 (this (by simp)), hperm.mem_iff.1 (this (by simp))⟩
    refine (hs.and hall).imp ?_
    rintro x y ⟨hxy, hx, hy⟩
    have e2 := d4 x hx
    have e3 := d4 y hy
    have e4 := count y hy
    have e5 := count x hx
    unfold keyLt at hxy
    rw [if_pos (by omega), decide_eq_false_iff_not] at hxy
    omega
  · show List.Forall₂ _ _ (r0.merged.map shownItem)
    rw [y3, List.map_map]
    have : ∀ l : List RItem, (∀ x ∈ l, x ∈ a.merged) → List.Forall₂ (fun k item => ∃ (name : Str) (us : List Kind), Names p game k name ∧ us.Pairwise (fun a b => Kind.lt a b) ∧
        (∀ u, u ∈ us ↔ UsefulAfter p game k n u) ∧ item = (⟨tilePictures "small" [name], ("Discard".toList ++ [Char.ofNat 160]) ::
        stepsText n (unseenCopies p four game (UsefulAfter p game k n)), tilePictures "small" (us.map kindName)⟩ : ShownItem))
        (l.map (fun x => x.discard.view)) (l.map (shownItem ∘ RItem.norm)) := by
      intro l
      induction l with
      | nil => intro _; exact List.Forall₂.nil
      | cons x l ih =>
        intro hl
        have hx := hl x (by simp)
        refine List.Forall₂.cons ?_ (ih (fun y hy => hl y (by simp [hy])))
        have hsu := sorted_useful (hmi x hx).2.1 (plain x hx)
        refine ⟨_, _, names x hx, hsu.1, ?_, ?_⟩
        · intro u; rw [hsu.2.1, usefulAfter x hx]
        · rw [← d4 x hx]
          rw [d4 x hx]
          show shownItem x.norm = _
          rw [shownItem_norm (count x hx) (hmi x hx).2.1 (plain x hx), d4 x hx]
    exact this _ (fun x hx => hperm.mem_iff.1 hx)

/-- the inputs of a report, and what is common to all rows -/
theorem shownRow_report {iter : List Int → List Int} (hi : ∀ l, (iter l).Perm l) (float : Rat → Str) {p : Fin 4} {four : Bool}
    {seed : List Int} {hands : Fin 4 → List Int} {more : List (Str × Str)} {ms : List Move} (h : FairGame p seed hands more ms)
    {pre : List Move} {t : Nat} {post : List Move} (e : ms = pre ++ .discard p t :: post) {r : RoundReasoning}
    (hr : reportAt iter p four (Move.deal seed hands more :: pre, t) = .ok r) (index : Nat)
    (hnr : NoRedUseful p (Move.deal seed hands more :: pre)) :
    ∃ hand inv a, hand.Nodup ∧ (∀ n ∈ hand, 0 ≤ n ∧ n < 136) ∧ heldKinds hand = handKinds p (Move.deal seed hands more :: pre) ∧
      analyse iter hand inv (finalMelds (meldsOf p pre)) = .ok a ∧
      ∀ n, RightItems (winsFor p (Move.deal seed hands more :: pre)) (heldKinds hand) n a.merged →
        HandStep p (Move.deal seed hands more :: pre) n →
        AdviceOn p four (Move.deal seed hands more :: pre) (shownRow float index r) n (fun k => k ∈ a.merged.map (fun x => x.discard.view)) ∧
        ∃ rate : Rat, rate ≤ 1 ∧ RowStyle float (Move.deal seed hands more :: pre) rate (shownRow float index r).style ∧
          ((∀ x ∈ (shownRow float index r).choice, x ∈ (shownRow float index r).expected) → rate = 0) ∧
          ((∀ k ∈ Keepers (winsFor p (Move.deal seed hands more :: pre)) (heldKinds hand) n, k ∈ a.merged.map (fun x => x.discard.view)) →
            NoRedEver p (Move.deal seed hands more :: pre) → 0 ≤ rate) := by
  obtain ⟨hand, inv, h1, h2, h3, h4, h5, h6, h7, h8, h9, h10, h11⟩ := report_inputs iter four h e
  rw [hr] at h1
  cases hd : discardReasoning iter p (Move.discard p t).event hand inv (finalMelds (meldsOf p pre)) with
  | error x => rw [hd] at h1; cases x <;> simp [inGenerator, Except.map] at h1
  | ok r0 =>
  rw [hd] at h1
  simp only [inGenerator, Except.map, Except.ok.injEq] at h1
  have hk := handKinds_eq h2.1 h3
  have hrich : (pre.any (fun m => decide (m.event.tag = "REACH".toList)) = true) ↔
      ∃ m ∈ Move.deal seed hands more :: pre, m.event.tag = "REACH".toList := any_reach seed hands more pre
  have hpd : playerDiscard p (Move.discard p t).event = some (t : Int) := by
    rw [playerDiscard_move p (m := .discard p t) trivial]; simp
  obtain ⟨a, best, more', m, tile, items, your, rate, strs, ha, hex, hp', ht', hit, hy, _, _, e'⟩ := discardReasoning_inv hd
  have hw : winsFor p (Move.deal seed hands more :: pre) = checkedWins (meldCount (finalMelds (meldsOf p pre))) := rfl
  refine ⟨hand, inv, a, h2.1, h2.2, hk, ha, ?_⟩
  intro n hright hstep
  rw [hw] at hright ⊢
  have hredIn : ∀ u, RedIn hand u → RedHeld p (Move.deal seed hands more :: pre) u := by
    rintro u ⟨x, x1, x2⟩
    exact ⟨x, (h3 x).1 x1, x2⟩
  obtain ⟨_, _, s3, _⟩ := tileOf_spec (h2.2 _ h4)
  have hrat := C62_right iter hi p _ hand h2.2 inv h7 h9 _ n
    (fun a' ha' => by rw [ha] at ha'; cases ha'; exact hright)
    (fun a' ha' x hx u hu hred => by
      rw [ha] at ha'; cases ha'
      obtain ⟨d1, _, _, d4⟩ := hright.2 x hx
      rw [hk] at d1 d4
      exact hnr n hstep _ d1 u ((d4 u).1 hu) (hredIn u hred)) r0 hd t hpd h4 _ ((s3 _).1 rfl)
  have y2 : r0.expected = (best :: more').map RItem.norm := by rw [e']
  have y1 : r0.yourChoice = your.norm := by rw [e']
  subst h1
  refine ⟨shownRow_core hi float h2.1 h2.2 h3 h7 h9 (fun ks useful hu => unseenCopies_eq h7 h10 ks useful hu) hnr hw hd ha hright hstep index _,
    r0.wrongRate, wrongRate_upper iter hi p _ hand h2.2 inv _ r0 hd t hpd h4, ?_, ?_, ?_⟩
  · exact shownRow_style float index { r0 with somebodyRichii := _ } _ hrich
  · intro hch
    refine hrat.1 ?_
    have hch' : ∀ x ∈ tilePictures "big" r0.yourChoice.discard, x ∈ tilePictures "big" (r0.expected.flatMap (fun x => x.discard)) := hch
    rw [y1] at hch' ⊢
    have hm := tilePictures_mem (t := your.discard.str) hch'
    obtain ⟨x, hx, hxd⟩ := List.mem_flatMap.1 hm
    refine List.mem_map.2 ⟨x, hx, ?_⟩
    rw [y2] at hx
    obtain ⟨y, _, rfl⟩ := List.mem_map.1 hx
    exact congrArg (fun z => [z]) (List.mem_singleton.1 hxd).symm
  · intro hall hev
    refine (hrat.2 (fun a' ha' => by rw [ha] at ha'; cases ha'; exact hall)).1 ?_
    have hc := (s3 _).1 rfl
    generalize (tileOf (t : Int)).view = k at hc
    intro i hs u hu hred
    have hpos : 0 < heldKinds hand k := by
      unfold heldKinds
      have : (t : Int) ∈ hand.filter (fun m => decide (CopyOf m k)) := by
        rw [List.mem_filter]; exact ⟨h4, by simpa using hc⟩
      have := List.length_pos_of_mem this
      omega
    rw [hk] at hpos hs hu
    exact hev k i hpos hs u hu (hredIn u hred)

theorem advice_all {p : Fin 4} {four : Bool} {game : List Move} {row : ShownRow} {e : Int} {P Q : Kind → Prop} (h : ∀ k, P k ↔ Q k)
    (ha : AdviceOn p four game row e P) : AdviceOn p four game row e Q := by
  have : P = Q := funext (fun k => propext (h k))
  rw [← this]
  exact ha

theorem shownRow_advice {iter : List Int → List Int} (hi : ∀ l, (iter l).Perm l) (float : Rat → Str) {p : Fin 4} {four : Bool}
    {seed : List Int} {hands : Fin 4 → List Int} {more : List (Str × Str)} {ms : List Move} (h : FairGame p seed hands more ms)
    {pre : List Move} {t : Nat} {post : List Move} (e : ms = pre ++ .discard p t :: post) {r : RoundReasoning}
    (hr : reportAt iter p four (Move.deal seed hands more :: pre, t) = .ok r) (index : Nat)
    (hopen : 1 ≤ meldCount (finalMelds (meldsOf p pre))) (hnr : NoRedUseful p (Move.deal seed hands more :: pre)) :
    AdviceOf float p four (Move.deal seed hands more :: pre) (shownRow float index r) := by
  obtain ⟨hand, inv, a, hnd, hh, hk, ha, key⟩ := shownRow_report hi float h e hr index hnr
  obtain ⟨n, o1, o2, o3⟩ := open_right hi hh hopen ha
  obtain ⟨k1, rate, k2, k3, k4, k5⟩ := key n o2 (by rw [hk] at o1; exact o1)
  rw [hk] at o1 o2 o3 k5
  refine ⟨⟨n, o1, advice_all (fun k => ⟨?_, o3 k⟩) k1⟩, rate, k5 o3, k2, k3, k4⟩
  intro hkm
  obtain ⟨x, hx, rfl⟩ := List.mem_map.1 hkm
  exact (o2.2 x hx).1

theorem shownRow_concealed {iter : List Int → List Int} (hi : ∀ l, (iter l).Perm l) (float : Rat → Str) {p : Fin 4} {four : Bool}
    {seed : List Int} {hands : Fin 4 → List Int} {more : List (Str × Str)} {ms : List Move} (h : FairGame p seed hands more ms)
    {pre : List Move} {t : Nat} {post : List Move} (e : ms = pre ++ .discard p t :: post) {r : RoundReasoning}
    (hr : reportAt iter p four (Move.deal seed hands more :: pre, t) = .ok r) (index : Nat)
    (hclosed : meldCount (finalMelds (meldsOf p pre)) = 0) (hnr : NoRedUseful p (Move.deal seed hands more :: pre))
    (hnear : NearerMelds p (Move.deal seed hands more :: pre)) :
    PartAdviceOf float p four (Move.deal seed hands more :: pre) (shownRow float index r) ∧
    ((∀ e, HandStep p (Move.deal seed hands more :: pre) e →
        {k : Kind | Keeps p (Move.deal seed hands more :: pre) e k}.ncard ≤ pairKeepers p (Move.deal seed hands more :: pre)) →
      AdviceOf float p four (Move.deal seed hands more :: pre) (shownRow float index r)) := by
  obtain ⟨hand, inv, a, hnd, hh, hk, ha, key⟩ := shownRow_report hi float h e hr index hnr
  obtain ⟨n, m, s1, s2, hlt⟩ := hnear
  rw [← hk] at s1 s2
  obtain ⟨o1, o2, o3⟩ := C57_lower iter hi hand hh inv _ hclosed a ha n m s1 s2 hlt
  obtain ⟨k1, rate, k2, k3, k4, k5⟩ := key n o2 (by rw [hk] at o1; exact o1)
  have hpk : pairKeepers p (Move.deal seed hands more :: pre) = (Keepers [.unique 7 []] (heldKinds hand) m).ncard := by
    unfold pairKeepers
    rw [← hk]
    congr 1
    ext k
    constructor
    · rintro ⟨x1, j, x2, x3⟩
      have := x2.unique s2
      subst this
      refine ⟨x1, ⟨_, by simp, x3⟩, ?_⟩
      intro w hw i hi
      rw [List.mem_singleton] at hw
      subst hw
      exact le_of_eq (x3.unique hi)
    · rintro ⟨x1, ⟨w, hw, x2⟩, _⟩
      rw [List.mem_singleton] at hw
      subst hw
      exact ⟨x1, m, s2, x2⟩
  have hkeep : {k : Kind | Keeps p (Move.deal seed hands more :: pre) n k} =
      Keepers (winsFor p (Move.deal seed hands more :: pre)) (heldKinds hand) n := by
    rw [hk]
    rfl
  have hlist : {k : Kind | k ∈ a.merged.map (fun x => x.discard.view)}.ncard = a.merged.length := by
    rw [ncard_list (s := {k : Kind | k ∈ a.merged.map (fun x => x.discard.view)}) o2.1 (fun x => Iff.rfl), List.length_map]
  have hsub : ∀ k ∈ a.merged.map (fun x => x.discard.view), Keeps p (Move.deal seed hands more :: pre) n k := by
    intro k hkm
    obtain ⟨x, hx, rfl⟩ := List.mem_map.1 hkm
    have := (o2.2 x hx).1
    rw [hk] at this
    exact this
  have hstep : HandStep p (Move.deal seed hands more :: pre) n := by
    rw [hk] at o1
    exact o1
  refine ⟨⟨⟨n, _, hstep, hsub, ?_, k1⟩, rate, k2, k3, k4⟩, ?_⟩
  · rw [hlist, o3, hkeep, hpk]
    rfl
  · intro hle
    have hle := hle n hstep
    have hfin : (Keepers (winsFor p (Move.deal seed hands more :: pre)) (heldKinds hand) n).Finite := by
      refine (List.finite_toSet allKinds).subset ?_
      intro k hkk
      exact mem_allKinds.2 (held_valid hkk.1)
    have hall : {k : Kind | k ∈ a.merged.map (fun x => x.discard.view)} =
        Keepers (winsFor p (Move.deal seed hands more :: pre)) (heldKinds hand) n := by
      refine Set.eq_of_subset_of_ncard_le ?_ ?_ hfin
      · intro k hkm
        rw [← hkeep]
        exact hsub k hkm
      · rw [hlist, o3, ← hpk]
        rw [hkeep] at hle
        exact le_of_eq (min_eq_left hle).symm
    have hmem : ∀ k, k ∈ a.merged.map (fun x => x.discard.view) ↔ Keeps p (Move.deal seed hands more :: pre) n k := by
      intro k
      have h1 : (k ∈ {k : Kind | k ∈ a.merged.map (fun x => x.discard.view)}) ↔
        k ∈ {k : Kind | Keeps p (Move.deal seed hands more :: pre) n k} := by rw [hall, hkeep]
      exact h1
    exact ⟨⟨n, hstep, advice_all hmem k1⟩, rate, k5 (fun k hk' => by
      rw [← hall] at hk'; exact hk'), k2, k3, k4⟩

/-- **C96.** The page of a record.  For a game the player went through by the rules, the section of the game has one row for every
    discard of the player, and the row of a discard says about it what it should. -/
theorem C96_row (iter : List Int → List Int) (hi : ∀ l, (iter l).Perm l) (decode : Str → Str) (semi : Bool) (name : TPlayer → Str)
    (player : TPlayer) (record : TRecord) (logUrl logId : Option Str) (generate : Bool) (file : Option Str) (page : Page)
    (hp : renderTemplate iter decode semi name player record logUrl logId generate = .ok (file, page))
    (picture : Str → Except PyErr (List Nat)) (float : Rat → Str) (text : Str) (h : page.html picture float name = .ok text)
    (p : Fin 4) (hpi : player.index = p) (k : Nat) (g : TGame) (hg : record.games[k]? = some g) (seed : List Int) (hands : Fin 4 → List Int)
    (more : List (Str × Str)) (ms : List Move) (he : g.events.map TEvent.ev = (Move.deal seed hands more :: ms).map Move.event)
    (hf : FairGame p seed hands more ms) :
    ∃ shown title rows, readGames text = some shown ∧ shown[k]? = some (title, rows) ∧ rows.length = (discardsOf p ms).length ∧
      ∀ pre t post, ms = pre ++ .discard p t :: post → ∃ row, rows[(discardsOf p pre).length]? = some row ∧
        RowOf float p (decide (record.players.length = 4)) (Move.deal seed hands more :: pre) t (discardsOf p pre).length row ∧
        (NoRedUseful p (Move.deal seed hands more :: pre) →
          (1 ≤ meldCount (finalMelds (meldsOf p pre)) →
            AdviceOf float p (decide (record.players.length = 4)) (Move.deal seed hands more :: pre) row) ∧
          (meldCount (finalMelds (meldsOf p pre)) = 0 → NearerMelds p (Move.deal seed hands more :: pre) →
            PartAdviceOf float p (decide (record.players.length = 4)) (Move.deal seed hands more :: pre) row ∧
            ((∀ e, HandStep p (Move.deal seed hands more :: pre) e → {k : Kind | Keeps p (Move.deal seed hands more :: pre) e k}.ncard ≤
                pairKeepers p (Move.deal seed hands more :: pre)) →
              AdviceOf float p (decide (record.players.length = 4)) (Move.deal seed hands more :: pre) row))) := by
  obtain ⟨shown, s1, s2, s3⟩ := C93_page iter decode semi name player record logUrl logId generate file page hp picture float text h
  obtain ⟨title, rounds, r1, r2, ⟨hlt, r3⟩, r4⟩ := s3 k g hg
  have hpp : (⟨player.index, hlt⟩ : Fin 4) = p := Fin.ext hpi
  rw [hpp, he] at r3
  obtain ⟨n1, n2⟩ := C58_number iter p _ seed hands more ms (fair_legalFor hf) hf.oneDeal rounds r3
  refine ⟨shown, title, _, s1, r1, ?_, ?_⟩
  · unfold shownRows
    rw [List.length_map, List.length_zipIdx, n1]
  · intro pre t post e
    obtain ⟨r, hr1, hr2⟩ := n2 _ _ (discardPoints_index e)
    refine ⟨shownRow float ((discardsOf p pre).length + 1) r, ?_, shownRow_rowOf hi float hf e hr2 _,
      fun hnr => ⟨fun ho => shownRow_advice hi float hf e hr2 _ ho hnr, fun hc hn => shownRow_concealed hi float hf e hr2 _ hc hnr hn⟩⟩
    unfold shownRows
    rw [List.getElem?_map, List.getElem?_zipIdx, hr1]
    simp

/-! ### An instance: a record of one game, in which player 1 makes four kans and then discards a 5p, keeping a 6p -/

def wholeEnd : Event :=
  ⟨"RYUUKYOKU".toList, [("owari".toList, "100,-20.0,300,40.0,300,10.0,300,-30.0".toList)]⟩

def wholeHands : Fin 4 → List Int
  | 1 => [4, 5, 6, 7, 8, 9, 10, 11, 12, 13, 14, 15, 20]
  | _ => [0, 1]

def wholePlay : List Move :=
  [.draw 1 21, .meld 1 1024, .dora 108, .draw 1 22, .meld 1 2048, .draw 1 23, .meld 1 3072, .draw 1 53, .meld 1 5120, .draw 1 57, .discard 1 53,
   .draw 2 60, .discard 2 60, .other wholeEnd]

def wholeDeal : Move := .deal [0, 0, 0, 2, 3, 132] wholeHands [("oya".toList, "0".toList)]

def wholeEvents : List Event := sampleRecord.take 2 ++ (wholeDeal :: wholePlay).map Move.event

theorem meld_legal {q : Fin 4} {c : Nat} (h : (meldOf q.val c).toOption.isSome = true) : LegalMove (.meld q c) := by
  cases hm : meldOf q.val c with
  | error x => rw [hm] at h; cases h
  | ok m => exact ⟨m, hm⟩

theorem whole_fair : FairGame 1 [0, 0, 0, 2, 3, 132] wholeHands [("oya".toList, "0".toList)] wholePlay := by
  refine ⟨?_, ?_, ?_, ?_, ?_, ?_⟩
  · intro m hm
    rcases List.mem_cons.1 hm with rfl | hm
    · show _ ≠ []
      simp
    · simp only [wholePlay, List.mem_cons, List.not_mem_nil, or_false] at hm
      rcases hm with rfl | rfl | rfl | rfl | rfl | rfl | rfl | rfl | rfl | rfl | rfl | rfl | rfl | rfl <;>
        first | trivial | exact meld_legal (by decide +kernel) | skip
      refine ⟨by decide, by decide, by decide, ?_⟩
      intro c d r e hc
      have e' : 'R' :: 'Y' :: "UUKYOKU".toList = c :: d :: r := e
      injection e' with e1 e2
      rw [← e1] at hc
      exact absurd hc (by decide)
  · intro m hm
    simp only [wholePlay, List.mem_cons, List.not_mem_nil, or_false] at hm
    rcases hm with rfl | rfl | rfl | rfl | rfl | rfl | rfl | rfl | rfl | rfl | rfl | rfl | rfl | rfl <;> rfl
  · refine ⟨by decide, by decide, ?_⟩
    unfold IsTileNumber
    decide
  · intro n hn
    simp only [wholePlay, List.mem_cons, List.not_mem_nil, or_false, Move.draw.injEq, reduceCtorEq, false_or] at hn
    omega
  · apply consistent_of_check
    decide +kernel
  · apply inTurn_of_check
    decide +kernel

def wholeCheck (es : List Event) (r : TRecord) : Bool :=
  match r.players[1]?, r.games with
  | some player, [g] => decide (player.index = 1) && decide (r.players.length = 4) && decide (g.events.map TEvent.ev = es) &&
      (player.text TPlayer.name).toOption.isSome && (r.text TPlayer.name).toOption.isSome &&
      (renderTemplate id id true TPlayer.name player r none none false).toOption.isSome
  | _, _ => false

theorem wholeCheck_spec {es : List Event} {r : TRecord} (h : wholeCheck es r = true) : ∃ player, r.players[1]? = some player ∧
    player.index = 1 ∧ r.players.length = 4 ∧ (∃ g, r.games = [g] ∧ g.events.map TEvent.ev = es) ∧
    (∃ s, player.text TPlayer.name = .ok s) ∧ (∃ s, r.text TPlayer.name = .ok s) ∧
    ∃ file page, renderTemplate id id true TPlayer.name player r none none false = .ok (file, page) := by
  unfold wholeCheck at h
  split at h
  · next player g hp hg =>
    simp only [Bool.and_eq_true, decide_eq_true_eq] at h
    obtain ⟨⟨⟨⟨⟨h1, h2⟩, h3⟩, h4⟩, h5⟩, h6⟩ := h
    have ok : ∀ {α : Type} {x : Except PyErr α}, x.toOption.isSome = true → ∃ y, x = .ok y := by
      intro α x hx
      cases x with
      | error => cases hx
      | ok y => exact ⟨y, rfl⟩
    obtain ⟨⟨file, page⟩, h6⟩ := ok h6
    exact ⟨player, hp, h1, h2, ⟨g, hg, h3⟩, ok h4, ok h5, file, page, h6⟩
  · cases h

theorem whole_make : ∃ r, TRecord.make wholeEvents = .ok r ∧ wholeCheck ((wholeDeal :: wholePlay).map Move.event) r = true := by
  have h : (TRecord.make wholeEvents).toOption.any (wholeCheck ((wholeDeal :: wholePlay).map Move.event)) = true := by decide +kernel
  generalize (wholeDeal :: wholePlay).map Move.event = es at h ⊢
  generalize TRecord.make wholeEvents = x at h ⊢
  cases x with
  | error => cases h
  | ok r => exact ⟨r, rfl, h⟩

/-- a record that is checked gives a page with one game -/
theorem whole_page {es : List Event} {r : TRecord} (hr : wholeCheck es r = true) : ∃ player file page g text, player.index = 1 ∧
    r.players.length = 4 ∧ r.games[0]? = some g ∧ g.events.map TEvent.ev = es ∧
    renderTemplate id id true TPlayer.name player r none none false = .ok (file, page) ∧
    page.html (fun _ => .ok [1]) (fun _ => "0.5".toList) TPlayer.name = .ok text := by
  obtain ⟨player, _, hi, h4, ⟨g, hg, he⟩, hs1, hs2, file, page, hp⟩ := wholeCheck_spec hr
  obtain ⟨p1, p2, p3, p4⟩ := C73_page id id true TPlayer.name player r none none false file page hp
  have hg0 : r.games[0]? = some g := by rw [hg]; rfl
  obtain ⟨title, rounds, q1, _, hlt, q2⟩ := p4 0 g hg0
  obtain ⟨text, ht⟩ := (C93_made (fun _ => .ok [1]) (fun _ => "0.5".toList) TPlayer.name page).2 (by
    refine ⟨by rw [p1]; exact hs1, by rw [p2]; exact hs2, fun _ _ => ⟨_, rfl⟩, ?_⟩
    have hl : page.games = [(title, rounds)] := by
      rw [hg] at p3
      match hpg : page.games, p3 with
      | [x], _ =>
        rw [hpg] at q1
        simp only [List.getElem?_cons_zero, Option.some.injEq] at q1
        rw [q1]
    rw [hl]
    intro x hx
    rw [List.mem_singleton] at hx
    subst hx
    exact C93_expected id _ _ _ rounds q2)
  exact ⟨player, file, page, g, text, hi, h4, hg0, he, hp, ht⟩

/-- the page is made; its game has one row, about the discard of the 5p, with advice -/
example : ∃ text shown title rows row, readGames text = some shown ∧ shown[0]? = some (title, rows) ∧ rows.length = 1 ∧
    rows[0]? = some row ∧ RowOf (fun _ => "0.5".toList) 1 true (wholeDeal :: wholePlay.take 10) 53 0 row ∧
    AdviceOf (fun _ => "0.5".toList) 1 true (wholeDeal :: wholePlay.take 10) row := by
  obtain ⟨r, _, hr⟩ := whole_make
  obtain ⟨player, file, page, g, text, hi, h4, hg0, he, hp, ht⟩ := whole_page hr
  obtain ⟨shown, title', rows, s1, s2, s3, s4⟩ := C96_row id (fun l => List.Perm.refl l) id true TPlayer.name player r none none false file page hp
    (fun _ => .ok [1]) (fun _ => "0.5".toList) text ht 1 hi 0 g hg0 _ wholeHands _ wholePlay he whole_fair
  obtain ⟨row, r1, r2, r3⟩ := s4 (wholePlay.take 10) 53 (wholePlay.drop 11) rfl
  rw [h4] at r2 r3
  refine ⟨text, shown, title', rows, row, s1, s2, s3, r1, r2, (r3 (noRedUseful ?_)).1 (by decide +kernel)⟩
  have : ∀ n, Held 1 n (wholeDeal :: wholePlay.take 10) → n ∈ [53, 57] := by
    obtain ⟨l, l1, l2, l3⟩ := C32_after_deal 1 [] List.nodup_nil [0, 0, 0, 2, 3, 132] wholeHands [("oya".toList, "0".toList)] (wholePlay.take 10)
      (fun m hm => fair_legalFor whole_fair m (by
        rcases List.mem_cons.1 hm with h | h
        · rw [h]; exact List.mem_cons_self ..
        · exact List.mem_cons_of_mem _ (List.mem_of_mem_take h)))
    have hv : ((GState.hand 1 []).passedEvents ((wholeDeal :: wholePlay.take 10).map Move.event)).toOption.map handValue = some [53, 57] := by
      decide +kernel
    rw [show (GState.hand 1 []).passedEvents ((wholeDeal :: wholePlay.take 10).map Move.event) = _ from l1] at hv
    simp only [Except.toOption, Option.map_some, handValue, Option.some.injEq] at hv
    subst hv
    exact fun n hn => (l3 n).2 hn
  intro n hn
  have := this n hn
  simp only [List.mem_cons, List.not_mem_nil, or_false] at this
  omega

/-! ### An instance without melds: 11m 22m 33m 44p 55p 678p 9s, one tile from four melds and a pair, two from seven pairs -/

def nearHands : Fin 4 → List Int
  | 1 => [1, 2, 5, 6, 9, 10, 49, 50, 53, 54, 57, 61, 65]
  | _ => [0, 3]

def nearPlay : List Move := [.draw 1 104, .discard 1 104, .other wholeEnd]

def nearDeal : Move := .deal [0, 0, 0, 2, 3, 132] nearHands [("oya".toList, "0".toList)]

def nearEvents : List Event := sampleRecord.take 2 ++ (nearDeal :: nearPlay).map Move.event

theorem near_fair : FairGame 1 [0, 0, 0, 2, 3, 132] nearHands [("oya".toList, "0".toList)] nearPlay := by
  refine ⟨?_, ?_, ?_, ?_, ?_, ?_⟩
  · intro m hm
    rcases List.mem_cons.1 hm with rfl | hm
    · show _ ≠ []
      simp
    · simp only [nearPlay, List.mem_cons, List.not_mem_nil, or_false] at hm
      rcases hm with rfl | rfl | rfl <;> first | trivial | skip
      refine ⟨by decide, by decide, by decide, ?_⟩
      intro c d r e hc
      have e' : 'R' :: 'Y' :: "UUKYOKU".toList = c :: d :: r := e
      injection e' with e1 e2
      rw [← e1] at hc
      exact absurd hc (by decide)
  · intro m hm
    simp only [nearPlay, List.mem_cons, List.not_mem_nil, or_false] at hm
    rcases hm with rfl | rfl | rfl <;> rfl
  · refine ⟨by decide, by decide, ?_⟩
    unfold IsTileNumber
    decide
  · intro n hn
    simp only [nearPlay, List.mem_cons, List.not_mem_nil, or_false, Move.draw.injEq, reduceCtorEq] at hn
    omega
  · apply consistent_of_check
    decide +kernel
  · apply inTurn_of_check
    decide +kernel

set_option maxRecDepth 100000 in
theorem near_make : ∃ r, TRecord.make nearEvents = .ok r ∧ wholeCheck ((nearDeal :: nearPlay).map Move.event) r = true := by
  have h : (TRecord.make nearEvents).toOption.any (wholeCheck ((nearDeal :: nearPlay).map Move.event)) = true := by decide +kernel
  generalize (nearDeal :: nearPlay).map Move.event = es at h ⊢
  generalize TRecord.make nearEvents = x at h ⊢
  cases x with
  | error => cases h
  | ok r => exact ⟨r, rfl, h⟩

/-- the hand before the discard -/
def nearHand : List Int := [1, 2, 5, 6, 9, 10, 49, 50, 53, 54, 57, 61, 65, 104]

theorem near_hand (n : Int) : n ∈ nearHand ↔ Held 1 n (nearDeal :: nearPlay.take 1) := by
  obtain ⟨l, l1, l2, l3⟩ := C32_after_deal 1 [] List.nodup_nil [0, 0, 0, 2, 3, 132] nearHands [("oya".toList, "0".toList)] (nearPlay.take 1)
    (fun m hm => fair_legalFor near_fair m (by
      rcases List.mem_cons.1 hm with h | h
      · rw [h]; exact List.mem_cons_self ..
      · exact List.mem_cons_of_mem _ (List.mem_of_mem_take h)))
  have hv : ((GState.hand 1 []).passedEvents ((nearDeal :: nearPlay.take 1).map Move.event)).toOption.map handValue = some nearHand := by
    decide +kernel
  rw [show (GState.hand 1 []).passedEvents ((nearDeal :: nearPlay.take 1).map Move.event) = _ from l1] at hv
  simp only [Except.toOption, Option.map_some, handValue, Option.some.injEq] at hv
  subst hv
  exact l3 n

theorem near_kinds : heldKinds nearHand = handKinds 1 (nearDeal :: nearPlay.take 1) := handKinds_eq (by decide) near_hand

/-- the step of a list of numbers, computed -/
theorem computed_step {hand : List Int} (hn : ∀ n ∈ hand, 0 ≤ n ∧ n < 136) {w : Pattern} {n : Int}
    (h : (heurBefore 0 w true (Counter.ofIter (hand.map tileOf) : TileSet)).1 = .ok n) : IsStep true w (heldKinds hand) n := by
  obtain ⟨_, hok, hc, _⟩ := analyse_hand (iter := id) (fun l => List.Perm.refl l) hn
  have := ((C15_heuristic_least w true _ hok 0).1 n).1 h
  rw [← hc]
  exact this.1

theorem near_melds : IsStep true (.normal 1 4) (heldKinds nearHand) 0 := computed_step (by decide) (by decide +kernel)

set_option maxRecDepth 100000 in
theorem near_pairs : IsStep true (.unique 7 []) (heldKinds nearHand) 1 := computed_step (by decide) (by decide +kernel)

theorem near_nearer : NearerMelds 1 (nearDeal :: nearPlay.take 1) :=
  ⟨0, 1, by rw [← near_kinds]; exact near_melds, by rw [← near_kinds]; exact near_pairs, by decide⟩

theorem heldKinds_erase {hand : List Int} {n : Int} {k : Kind} (hm : n ∈ hand) (hc : CopyOf n k) :
    heldKinds (hand.erase n) = minus (heldKinds hand) k := by
  rw [heldKinds_perm (List.perm_cons_erase hm)]
  funext j
  unfold heldKinds minus
  dsimp only
  by_cases hj : j = k
  · subst hj
    rw [if_pos rfl, List.filter_cons_of_pos (by simpa using hc)]
    simp
  · rw [if_neg hj, List.filter_cons_of_neg]
    simp only [decide_eq_true_eq]
    intro h
    exact hj (Option.some.inj (h.2.2.symm.trans hc.2.2))

/-- only the discard of the 9s keeps the step -/
theorem near_keeps {k : Kind} (h : Keeps 1 (nearDeal :: nearPlay.take 1) 0 k) : k = (.s, 9) := by
  obtain ⟨h1, h2⟩ := h
  have hx : ∃ n ∈ nearHand, CopyOf n k := by
    rw [← near_kinds] at h1
    unfold heldKinds at h1
    have : 0 < (nearHand.filter (fun m => decide (CopyOf m k))).length := by omega
    obtain ⟨m, hm⟩ := List.exists_mem_of_length_pos this
    exact ⟨m, (List.mem_filter.1 hm).1, by simpa using (List.mem_filter.1 hm).2⟩
  obtain ⟨n, hn, hc⟩ := hx
  obtain ⟨⟨w, hw, hst⟩, _⟩ := h2
  rw [← near_kinds, ← heldKinds_erase hn hc] at hst
  have hw' : w = .normal 1 4 ∨ w = .unique 7 [] := by
    have : winsFor 1 (nearDeal :: nearPlay.take 1) = [.normal 1 4, .unique 7 []] := by decide +kernel
    rw [this] at hw
    simpa using hw
  have hin : ∀ x ∈ nearHand.erase n, 0 ≤ x ∧ x < 136 := by
    intro x hx
    exact (show ∀ x ∈ nearHand, 0 ≤ x ∧ x < 136 by decide) x (List.mem_of_mem_erase hx)
  rcases hw' with rfl | rfl
  · have key : ∀ n ∈ nearHand, n ≠ 104 →
        (heurBefore 0 (.normal 1 4) true (Counter.ofIter ((nearHand.erase n).map tileOf) : TileSet)).1.toOption = some 1 := by
      decide +kernel
    by_cases h104 : n = 104
    · subst h104
      exact (Option.some.inj (show some (Suit.s, 9) = some k from hc.2.2)).symm
    · have := key n hn h104
      have hs : IsStep true (.normal 1 4) (heldKinds (nearHand.erase n)) 1 := by
        apply computed_step hin
        revert this
        generalize (heurBefore 0 (.normal 1 4) true (Counter.ofIter ((nearHand.erase n).map tileOf) : TileSet)).1 = x
        cases x with
        | error => intro h; cases h
        | ok y => intro h; cases h; rfl
      exact absurd (hst.unique hs) (by decide)
  · have := (step_minus (held_valid (by rw [near_kinds]; exact h1)) near_pairs (by rw [← heldKinds_erase hn hc]; exact hst)).1
    omega

set_option maxRecDepth 100000 in
theorem near_pairKeepers : 1 ≤ pairKeepers 1 (nearDeal :: nearPlay.take 1) := by
  have hs : IsStep true (.unique 7 []) (heldKinds (nearHand.erase 104)) 1 := computed_step (by decide) (by decide +kernel)
  rw [heldKinds_erase (k := (.s, 9)) (by decide) (by decide)] at hs
  unfold pairKeepers
  rw [← near_kinds, Nat.one_le_iff_ne_zero]
  refine Set.ncard_ne_zero_of_mem (a := (Suit.s, 9)) (show _ ∧ _ from ⟨by decide +kernel, 1, near_pairs, hs⟩) ?_
  refine (List.finite_toSet allKinds).subset ?_
  rintro k ⟨hk, _⟩
  exact mem_allKinds.2 (held_valid hk)

/-- the analysis of that hand: one item, discard 9s and wait for 4p or 5p, two tiles of each being left -/
def nearRun : Option (List RItem) := (analyse id nearHand (allNumbers.filter (fun x => decide (x ∉ nearHand.map InvElem.num))) []).toOption.map Analysis.merged

set_option maxRecDepth 100000 in
theorem nearRun_eq : nearRun = some [⟨⟨.s,9,false⟩, 0, [⟨.p,5,false⟩, ⟨.p,4,false⟩], 4⟩] := by decide +kernel

/-- instance of `C57_lower` and of the first premise of `C62_right` -/
example : ∃ a, analyse id nearHand (allNumbers.filter (fun x => decide (x ∉ nearHand.map InvElem.num))) [] = .ok a ∧ a.merged.length = 1 ∧
    RightItems (checkedWins 0) (heldKinds nearHand) 0 a.merged := by
  have h := nearRun_eq
  unfold nearRun at h
  generalize hx : analyse id nearHand (allNumbers.filter (fun x => decide (x ∉ nearHand.map InvElem.num))) [] = x at h ⊢
  cases x with
  | error => cases h
  | ok a =>
    simp only [Except.toOption, Option.map_some, Option.some.injEq] at h
    have := C57_lower id (fun l => List.Perm.refl l) nearHand (by decide) _ [] rfl a hx 0 1 near_melds near_pairs (by decide)
    exact ⟨a, rfl, by rw [h]; rfl, this.2.1⟩

/-- no more discards keep the step than keep the one for seven pairs -/
theorem near_few : ∀ e, HandStep 1 (nearDeal :: nearPlay.take 1) e →
    {k : Kind | Keeps 1 (nearDeal :: nearPlay.take 1) e k}.ncard ≤ pairKeepers 1 (nearDeal :: nearPlay.take 1) := by
  intro e ⟨⟨w, hw, hst⟩, hmin⟩
  have hws : winsFor 1 (nearDeal :: nearPlay.take 1) = [.normal 1 4, .unique 7 []] := by decide +kernel
  rw [hws] at hw hmin
  rw [← near_kinds] at hst hmin
  have he0 : e = 0 := by
    have h0 := hmin _ (by simp) 0 near_melds
    simp only [List.mem_cons, List.not_mem_nil, or_false] at hw
    rcases hw with rfl | rfl
    · exact hst.unique near_melds
    · have := hst.unique near_pairs
      omega
  subst he0
  refine le_trans ?_ near_pairKeepers
  refine le_trans (Set.ncard_le_ncard (t := {(Suit.s, 9)}) (fun k hk => near_keeps hk) (Set.finite_singleton _)) ?_
  rw [Set.ncard_singleton]

theorem near_noRed : NoRedHeld 1 (nearDeal :: nearPlay.take 1) := by
  intro n hn
  have := (near_hand n).2 hn
  simp only [nearHand, List.mem_cons, List.not_mem_nil, or_false] at this
  omega

/-- the page is made; its game has one row, about the discard of the 9s, with advice -/
example : ∃ text shown title rows row, readGames text = some shown ∧ shown[0]? = some (title, rows) ∧ rows.length = 1 ∧
    rows[0]? = some row ∧ RowOf (fun _ => "0.5".toList) 1 true (nearDeal :: nearPlay.take 1) 104 0 row ∧
    PartAdviceOf (fun _ => "0.5".toList) 1 true (nearDeal :: nearPlay.take 1) row ∧
    AdviceOf (fun _ => "0.5".toList) 1 true (nearDeal :: nearPlay.take 1) row := by
  obtain ⟨r, _, hr⟩ := near_make
  obtain ⟨player, file, page, g, text, hi, h4, hg0, he, hp, ht⟩ := whole_page hr
  obtain ⟨shown, title', rows, s1, s2, s3, s4⟩ := C96_row id (fun l => List.Perm.refl l) id true TPlayer.name player r none none false file page hp
    (fun _ => .ok [1]) (fun _ => "0.5".toList) text ht 1 hi 0 g hg0 _ nearHands _ nearPlay he near_fair
  obtain ⟨row, r1, r2, r3⟩ := s4 (nearPlay.take 1) 104 (nearPlay.drop 2) rfl
  rw [h4] at r2 r3
  obtain ⟨u1, u2⟩ := (r3 (noRedUseful near_noRed)).2 (by decide +kernel) near_nearer
  refine ⟨text, shown, title', rows, row, s1, s2, s3, r1, r2, u1, u2 near_few⟩

end Verif.Props
