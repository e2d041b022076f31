import Verif.Proofs.WrongRate
import Verif.Props.Checker
import Verif.Proofs.CheckerOutcome
import Verif.Proofs.CheckerPoints
import Mathlib.Algebra.Order.Field.Rat
import Mathlib.Algebra.Order.Field.Basic
import Mathlib.Tactic.Positivity
import Mathlib.Tactic.Linarith

/-! Properties of a whole report of the record checker: C55 again, C58, C61 and C62. -/
namespace Verif.Props
open Verif.Py Verif.Model Verif.Spec Verif.Proofs

/-! ### C55 -/

/-- **C55.** In a report every count shown is the number of unseen copies of the useful kinds, unless one of them is a five of which
    the red one is in the hand; unseen are the invisible tiles that are not in the hand. -/
theorem C55_report (iter : List Int → List Int) (hi : ∀ l, (iter l).Perm l) (player : Fin 4) (e : Event)
    (hand : List Int) (hn : ∀ n ∈ hand, 0 ≤ n ∧ n < 136) (inv : List InvElem) (hnd : inv.Nodup)
    (h0 : ∀ n, InvElem.num n ∈ inv → 0 ≤ n) (melds : List Meld) (r : RoundReasoning)
    (h : discardReasoning iter player e hand inv melds = .ok r) (n : Int) (he : playerDiscard player e = some n)
    (hm : n ∈ hand) :
    ∀ x ∈ r.yourChoice :: r.expected ++ r.merged, ∃ y : RItem, x = y.norm ∧ (y.useful.map Tile.view).Nodup ∧
      ((∀ u ∈ y.useful.map Tile.view, ¬ RedIn hand u) →
        y.count = unseenOf (inv.filter (fun i => decide (i ∉ hand.map InvElem.num))) (y.useful.map Tile.view)) := by
  obtain ⟨a, best, more, m, tile, items, your, rate, strs, ha, hex, hp, ht, hit, hy, _, _, rfl⟩ := discardReasoning_inv h
  rw [he] at hp
  cases hp
  rw [(tileOf_spec (hn n hm)).1] at ht
  cases ht
  obtain ⟨_, y1, y2, y3, _⟩ := your_choice hi hn ha hm hit hy
  have hmi := merged_from hi hn ha
  obtain ⟨tiles, lists, _, _, hinv, _⟩ := analyse_inv ha
  have hset : setSub inv (hand.map InvElem.num) = inv.filter (fun i => decide (i ∉ hand.map InvElem.num)) := by
    unfold setSub
    apply List.filter_congr
    intro x _
    simp
  rw [← hset, ← hinv]
  have hnd' : a.invisible.Nodup := by rw [hinv]; exact setSub_nodup hnd
  have h0' : TileNumbers a.invisible := by rw [hinv]; exact setSub_numbers h0
  have hmerged : ∀ z ∈ a.merged, (z.useful.map Tile.view).Nodup ∧
      ((∀ u ∈ z.useful.map Tile.view, ¬ RedIn hand u) → z.count = unseenOf a.invisible (z.useful.map Tile.view)) := by
    intro z hz
    obtain ⟨z1, z2, z3⟩ := hmi z hz
    exact ⟨z2, fun hr => count_plain hnd' h0' z1 (plain_notRed hn z3.2 hr) z2⟩
  have hne : a.merged ≠ [] := by
    intro hm'
    rw [(expected_eq a.merged).1 hm'] at hex
    cases hex
  rw [(expected_eq a.merged).2 hne, Except.ok.injEq] at hex
  intro x hx
  rw [List.cons_append, List.mem_cons, List.mem_append] at hx
  rcases hx with rfl | hx | hx
  · exact ⟨your, rfl, y2, fun hr => count_plain hnd' h0' y1 (plain_notRed hn y3 hr) y2⟩
  · have hx' : x ∈ (best :: more).map RItem.norm := hx
    obtain ⟨z, hz, rfl⟩ := List.mem_map.1 hx'
    rw [← hex] at hz
    exact ⟨z, rfl, hmerged z (List.mem_filter.1 hz).1⟩
  · obtain ⟨z, hz, rfl⟩ := List.mem_map.1 hx
    exact ⟨z, rfl, hmerged z ((pySorted_perm a.merged).mem_iff.1 hz)⟩

/-! ### C61 -/

/-- **C61.** The item shown as the player's choice is the analysis of the tile discarded: the hand without it has
    the step shown for one of the win types looked at and a smaller one for none, and its useful tiles are, each
    kind once, those useful for a win type with that step. -/
theorem C61_your_choice (iter : List Int → List Int) (hi : ∀ l, (iter l).Perm l) (player : Fin 4) (e : Event)
    (hand : List Int) (hn : ∀ n ∈ hand, 0 ≤ n ∧ n < 136) (inv : List InvElem) (melds : List Meld) (r : RoundReasoning)
    (h : discardReasoning iter player e hand inv melds = .ok r) (n : Int) (he : playerDiscard player e = some n)
    (hm : n ∈ hand) :
    ∃ (x : RItem) (k : Kind), r.yourChoice = x.norm ∧ tileFromTenhou n = .ok x.discard ∧ CopyOf n k ∧
      (∃ w ∈ checkedWins (meldCount melds), IsStep true w (minus (heldKinds hand) k) x.step) ∧
      (∀ w ∈ checkedWins (meldCount melds), ∀ m, IsStep true w (minus (heldKinds hand) k) m → x.step ≤ m) ∧
      (x.useful.map Tile.view).Nodup ∧
      ∀ u, u ∈ x.useful.map Tile.view ↔ ∃ w ∈ checkedWins (meldCount melds),
        IsStep true w (minus (heldKinds hand) k) x.step ∧ UsefulKind w (minus (heldKinds hand) k) u := by
  obtain ⟨a, best, more, m, tile, items, your, rate, strs, ha, hex, hp, ht, hit, hy, _, _, rfl⟩ := discardReasoning_inv h
  rw [he] at hp
  cases hp
  obtain ⟨s1, _, s3, _⟩ := tileOf_spec (hn n hm)
  rw [s1] at ht
  cases ht
  obtain ⟨y0, y1, y2, y3, y4, y5, y6⟩ := your_choice hi hn ha hm hit hy
  exact ⟨your, (tileOf n).view, rfl, by rw [y0]; exact s1, (s3 _).1 rfl, y4, y5, y2, y6⟩

/-! ### C62 -/

theorem plain_names : ∀ k ∈ allKinds, ∀ k' ∈ allKinds,
    Tile.str ⟨k.1, k.2, false⟩ = Tile.str ⟨k'.1, k'.2, false⟩ → k = k' := by decide +kernel

theorem plain_name_inj {s t : Tile} (hs : RealTile s) (ht : RealTile t) (ps : s.aka = false) (pt : t.aka = false)
    (h : s.str = t.str) : s = t := by
  obtain ⟨c, n, a⟩ := s
  obtain ⟨c', n', a'⟩ := t
  simp only at ps pt
  subst ps; subst pt
  have := plain_names (c, n) (mem_allKinds.2 hs.1) (c', n') (mem_allKinds.2 ht.1) h
  cases this
  rfl

/-- four melds and, in the examples, a hand of two tiles -/
def openMelds : List Meld :=
  [⟨.triplet, [0, 1], [2], 1⟩, ⟨.triplet, [4, 5], [6], 1⟩, ⟨.triplet, [8, 9], [10], 1⟩, ⟨.triplet, [12, 13], [14], 1⟩]

/-- instance: 5p and an east wind, one east already seen.  Discarding 5p costs a third, discarding the east nothing. -/
example : (discardReasoning id 0 (Move.discard 0 53).event [53, 108] (allNumbers.filter (fun x => decide (x ≠ .num 109)))
      openMelds).toOption.map (fun r => (r.wrongRate, r.yourChoice.count)) = some (roundDouble (1 - roundDouble (2 / 3)), 2) ∧
    (discardReasoning id 0 (Move.discard 0 108).event [53, 108] (allNumbers.filter (fun x => decide (x ≠ .num 109)))
      openMelds).toOption.map (fun r => (r.wrongRate, r.expected.map NItem.discard)) = some (0, [["1z".toList]]) ∧
    NoRedFives [53, 108] ∧ meldCount openMelds = 4 := by
  refine ⟨by decide +kernel, by decide +kernel, ?_, by decide⟩
  unfold NoRedFives
  decide

/-- the hand of `C62_negative`: 11m 22m 33m 444p 22p 66p 5p -/
def negativeHand : List Int := [1, 2, 5, 6, 9, 10, 49, 50, 51, 41, 42, 57, 58, 53]

set_option maxRecDepth 100000 in
/-- **C62** fails for concealed hands: here the discard of 6p is rated below -4/3, because the merged list has lost it
    and the expected discard has only 3 useful tiles where 6p has 7. -/
theorem C62_negative :
    (discardReasoning id 0 (Move.discard 0 57).event negativeHand allNumbers []).toOption.map
      (fun r => (decide (r.wrongRate < -4 / 3), r.yourChoice.step, r.yourChoice.count, r.expected.map (fun x => (x.step, x.count)))) =
    some (true, 0, 7, [(0, 3)]) := by decide +kernel

/-- **C62** needs the absence of red fives: with a red 5p instead of the 5p of the instance above, the tile counted as
    its copies are the 9m, so that discarding the east, all its copies unseen, is rated differently from
    discarding the red five although both leave three copies of one kind to wait for. -/
theorem C62_red_five :
    (discardReasoning id 0 (Move.discard 0 52).event [52, 108] allNumbers openMelds).toOption.map
      (fun r => (r.wrongRate, r.expected.map NItem.discard)) = some (1 / 4, [["1z".toList]]) ∧
    (discardReasoning id 0 (Move.discard 0 53).event [53, 108] allNumbers openMelds).toOption.map
      (fun r => (r.wrongRate, r.expected.map NItem.discard)) = some (0, [["1z".toList], ["5p".toList]]) := by
  decide +kernel

/-- the steps of the merged reasonings are those of the whole hand -/
theorem merged_steps {iter : List Int → List Int} (hi : ∀ l, (iter l).Perm l) {hand : List Int}
    (hn : ∀ n ∈ hand, 0 ≤ n ∧ n < 136) {inv : List InvElem} {melds : List Meld} {a : Analysis}
    (h : analyse iter hand inv melds = .ok a) {x : RItem} (hx : x ∈ a.merged) :
    (∃ w ∈ checkedWins (meldCount melds), IsStep true w (heldKinds hand) x.step) ∧
    ∀ w ∈ checkedWins (meldCount melds), ∀ m, IsStep true w (heldKinds hand) m → x.step ≤ m := by
  by_cases hk : 1 ≤ meldCount melds
  · obtain ⟨_, nn, d1, d2, d3, d4⟩ := C57_open iter hi hand hn inv melds hk a h
    have hw : checkedWins (meldCount melds) = [.normal 1 (4 - meldCount melds)] := by
      unfold checkedWins; rw [if_neg (by omega)]
    rw [hw, (d4 x hx).1]
    refine ⟨⟨_, by simp, d1⟩, ?_⟩
    intro w hw m hm
    simp only [List.mem_cons, List.not_mem_nil, or_false] at hw
    subst hw
    exact le_of_eq (d1.unique hm)
  · have hk0 : meldCount melds = 0 := by
      have : 0 ≤ meldCount melds := by unfold meldCount; omega
      omega
    obtain ⟨l1, l2, ⟨n1, a1, _, _, a4⟩, ⟨n2, b1, _, _, b4⟩, _, hc⟩ := C57_concealed iter hi hand hn inv melds hk0 a h
    obtain ⟨i, hx⟩ := List.mem_iff_getElem?.1 hx
    obtain ⟨y, z, hy, hz, _, hs, _⟩ := hc i x hx
    have e1 := (a4 y (List.mem_of_getElem? hy)).1
    have e2 := (b4 z (List.mem_of_getElem? hz)).1
    have hw : checkedWins (meldCount melds) = [.normal 1 4, .unique 7 []] := by rw [hk0]; rfl
    rw [hw]
    constructor
    · rcases le_total n1 n2 with h' | h'
      · exact ⟨_, List.mem_cons_self .., by rw [show x.step = n1 by omega]; exact a1⟩
      · exact ⟨_, List.mem_cons_of_mem _ (List.mem_cons_self ..), by rw [show x.step = n2 by omega]; exact b1⟩
    · intro w hw m hm
      simp only [List.mem_cons, List.not_mem_nil, or_false] at hw
      rcases hw with rfl | rfl
      · have := a1.unique hm; omega
      · have := b1.unique hm; omega

theorem chosen_step {iter : List Int → List Int} (hi : ∀ l, (iter l).Perm l) {hand : List Int}
    (hn : ∀ n ∈ hand, 0 ≤ n ∧ n < 136) {inv : List InvElem} {melds : List Meld} {a : Analysis}
    (h : analyse iter hand inv melds = .ok a) {n : Int} (hm : n ∈ hand) {items : List RItem} {your : RItem}
    (hi' : a.wins.mapM (reasoningDiscards a.invisible a.hand (tileOf n)) = .ok items)
    (hy : reasoningMerge a.invisible items = .ok your) {x : RItem} (hx : x ∈ a.merged) :
    your.step = x.step ∨ your.step = x.step + 1 := by
  obtain ⟨y0, y1, y2, y3, ⟨w, y4, y4'⟩, y5, y6⟩ := your_choice hi hn h hm hi' hy
  obtain ⟨⟨v, m1, m2⟩, m3⟩ := merged_steps hi hn h hx
  obtain ⟨s1, s2, s3, s4⟩ := tileOf_spec (hn n hm)
  have hvk : ValidKind (tileOf n).view := s2.1
  obtain ⟨k1, hk1⟩ := exists_isStep (lim := true) (w := v) (minus (heldKinds hand) (tileOf n).view)
    (by obtain ⟨⟨D, p, q, _⟩, _⟩ := m2; exact ⟨D, p, q⟩)
  obtain ⟨k2, hk2⟩ := exists_isStep (lim := true) (w := w) (heldKinds hand)
    (by obtain ⟨⟨D, p, q, _⟩, _⟩ := y4'; exact ⟨D, p, q⟩)
  have e1 := isStep_plus hvk hk1 (by rw [minus_plus]; exact m2)
  have e2 := isStep_plus hvk y4' (by rw [minus_plus]; exact hk2)
  have e3 := y5 v m1 k1 hk1
  have e4 := m3 w y4 k2 hk2
  omega

/-- **C62.** For every hand the discard made has the step of the expected ones or one more. -/
theorem C62_steps (iter : List Int → List Int) (hi : ∀ l, (iter l).Perm l) (player : Fin 4) (e : Event)
    (hand : List Int) (hn : ∀ n ∈ hand, 0 ≤ n ∧ n < 136) (inv : List InvElem) (melds : List Meld) (r : RoundReasoning)
    (h : discardReasoning iter player e hand inv melds = .ok r) (n : Int) (he : playerDiscard player e = some n)
    (hm : n ∈ hand) : ∀ x ∈ r.expected, r.yourChoice.step = x.step ∨ r.yourChoice.step = x.step + 1 := by
  obtain ⟨a, best, more, m, tile, items, your, rate, strs, ha, hex, hp, ht, hit, hy, hrate, _, rfl⟩ := discardReasoning_inv h
  rw [he] at hp
  cases hp
  obtain ⟨s1, s2, s3, s4⟩ := tileOf_spec (hn n hm)
  rw [s1] at ht
  cases ht
  have hne : a.merged ≠ [] := by
    intro hm'
    rw [(expected_eq a.merged).1 hm'] at hex
    cases hex
  rw [(expected_eq a.merged).2 hne, Except.ok.injEq] at hex
  intro x hx
  obtain ⟨v, hv, rfl⟩ := List.mem_map.1 hx
  rw [← hex] at hv
  exact chosen_step hi hn ha hm hit hy (List.mem_filter.1 hv).1

/-- **C62.** For every hand, concealed or not, with or without red fives, the wrong rate is at most 1, and it is 1 exactly
    when no unseen tile is useful after the discard. -/
theorem C62_upper (iter : List Int → List Int) (hi : ∀ l, (iter l).Perm l) (player : Fin 4) (e : Event)
    (hand : List Int) (hn : ∀ n ∈ hand, 0 ≤ n ∧ n < 136) (inv : List InvElem) (hl : inv.length ≤ 2 ^ 45) (melds : List Meld)
    (r : RoundReasoning) (h : discardReasoning iter player e hand inv melds = .ok r) (n : Int)
    (he : playerDiscard player e = some n) (hm : n ∈ hand) :
    r.wrongRate ≤ 1 ∧ (r.wrongRate = 1 ↔ r.yourChoice.count = 0) := by
  obtain ⟨a, best, more, m, tile, items, your, rate, strs, ha, hex, hp, ht, hit, hy, hrate, _, rfl⟩ := discardReasoning_inv h
  rw [he] at hp
  cases hp
  obtain ⟨s1, s2, s3, s4⟩ := tileOf_spec (hn n hm)
  rw [s1] at ht
  cases ht
  obtain ⟨y0, y1, y2, _⟩ := your_choice hi hn ha hm hit hy
  have hmi := merged_items hi hn ha
  have hne : a.merged ≠ [] := by
    intro hm'
    rw [(expected_eq a.merged).1 hm'] at hex
    cases hex
  rw [(expected_eq a.merged).2 hne, Except.ok.injEq] at hex
  have hb : best ∈ a.merged := by
    have : best ∈ a.merged.filter (fun x => decide (BestItem a.merged x)) := by rw [hex]; simp
    exact (List.mem_filter.1 this).1
  obtain ⟨tiles, lists, _, _, hinv, _⟩ := analyse_inv ha
  have hlen : a.invisible.length ≤ inv.length := by rw [hinv]; exact List.length_filter_le _ _
  have cy := item_count y1 y2
  have cb := item_count (hmi best hb).1 (hmi best hb).2.1
  -- the rate is one minus a quotient whose denominator is positive and at most `2 ^ 53`
  have key : ∃ base : ℤ, 0 < base ∧ base ≤ 2 ^ 53 ∧ rate = roundDouble (1 - roundDouble ((your.count : ℚ) / base)) := by
    rcases chosen_step hi hn ha hm hit hy hb with hst | hst
    · obtain ⟨c1, c2⟩ := wrongRate_same hrate hst
      exact ⟨best.count, by omega, by omega, c2⟩
    · obtain ⟨c1, c2, c3⟩ := wrongRate_next hrate hst
      refine ⟨best.count * (a.invisible.length : Int), ?_, ?_, by rw [c3]; push_cast; rfl⟩
      · have h1 : 0 < best.count := by omega
        have h2 : (0 : Int) < a.invisible.length := by omega
        exact Int.mul_pos h1 h2
      · have h1 : (a.invisible.length : Int) ≤ 2 ^ 45 := by exact_mod_cast le_trans hlen hl
        have h2 : (0 : Int) ≤ a.invisible.length := by omega
        nlinarith
  obtain ⟨base, b1, b2, b3⟩ := key
  have bq : (0 : ℚ) < base := by exact_mod_cast b1
  have yq : (0 : ℚ) ≤ your.count := by exact_mod_cast cy.1
  show rate ≤ 1 ∧ (rate = 1 ↔ your.count = 0)
  rw [b3]
  refine ⟨rest_upper (div_nonneg yq bq.le), fun h1 => ?_, fun h1 => ?_⟩
  · by_contra hc
    have h2 : (1 : ℚ) ≤ your.count := by exact_mod_cast (by omega : 1 ≤ your.count)
    have h3 : (base : ℚ) ≤ 2 ^ 53 := by exact_mod_cast b2
    have h4 : (1 : ℚ) / 2 ^ 53 ≤ (your.count : ℚ) / base := by
      rw [div_le_div_iff₀ (by positivity) bq]
      nlinarith
    exact absurd h1 (ne_of_lt (rest_below h4))
  · rw [h1, Int.cast_zero, zero_div, roundDouble_zero, sub_zero, roundDouble_one]

/-! ### C58 -/

/-- **C58.** The reports of a game: one for each discard of the player, in order, each made from the states after
    the moves before it.  The first that fails makes the whole call fail with its exception. -/
theorem C58_reports (iter : List Int → List Int) (p : Fin 4) (four : Bool) (seed : List Int) (hands : Fin 4 → List Int)
    (more : List (Str × Str)) (ms : List Move) (hm : ∀ m ∈ Move.deal seed hands more :: ms, LegalFor p m)
    (hd : ∀ m ∈ ms, m.isDeal = false) :
    gameReasonList iter p four ((Move.deal seed hands more :: ms).map Move.event) =
      (discardPoints p (Move.deal seed hands more :: ms)).mapM (reportAt iter p four) := by
  have hp := allPass_game p four seed hands more ms hm hd
  unfold gameReasonList
  rw [discardPoints_eq]
  have h1 := gameLoop_groups iter p _ 0 false (startStates p four) hp
  have h2 := loop1_points iter p four (Move.deal seed hands more :: ms) [] (startStates p four) (fun m h => (hm m h).1)
    ((pass_ok_iff _ _ _).2 ⟨rfl, rfl, rfl⟩) hp
  unfold startStates at h1 h2
  rw [h1]
  exact h2

/-- **C58.** When it succeeds there are as many reports as discards of the player. -/
theorem C58_number (iter : List Int → List Int) (p : Fin 4) (four : Bool) (seed : List Int) (hands : Fin 4 → List Int)
    (more : List (Str × Str)) (ms : List Move) (hm : ∀ m ∈ Move.deal seed hands more :: ms, LegalFor p m)
    (hd : ∀ m ∈ ms, m.isDeal = false) (l : List RoundReasoning)
    (h : gameReasonList iter p four ((Move.deal seed hands more :: ms).map Move.event) = .ok l) :
    l.length = (discardsOf p ms).length ∧
    ∀ (i : Nat) (x : List Move × Nat), (discardPoints p (Move.deal seed hands more :: ms))[i]? = some x →
      ∃ r, l[i]? = some r ∧ reportAt iter p four x = .ok r := by
  rw [C58_reports iter p four seed hands more ms hm hd] at h
  have hf := mapM_forall h
  refine ⟨?_, fun i x hx => hf.of_left hx⟩
  rw [← hf.length_eq, discardPoints_eq]
  have gen : ∀ (ms pre : List Move), (pointsFrom p pre ms).length = (discardsOf p ms).length := by
    intro ms
    induction ms with
    | nil => intro pre; rfl
    | cons m ms ih =>
      intro pre
      have := ih (pre ++ [m])
      unfold discardsOf at this ⊢
      rw [List.filterMap_cons]
      cases m with
      | discard q t =>
        by_cases hq : q = p
        · subst hq; simp [pointsFrom, ownDiscard, this]
        · simp [pointsFrom, ownDiscard, hq, this]
      | _ => simp [pointsFrom, ownDiscard, this]
  rw [gen]
  rfl

/-- **C58.** What the report for a discard is made from: the tiles the player holds then, the tiles no move has
    shown, and the melds of the player. -/
theorem C58_inputs (iter : List Int → List Int) (p : Fin 4) (four : Bool) (seed : List Int) (hands : Fin 4 → List Int)
    (more : List (Str × Str)) (pre : List Move) (t : Nat) (hm : ∀ m ∈ Move.deal seed hands more :: pre, LegalFor p m)
    (hd : ∀ m ∈ pre, m.isDeal = false) :
    ∃ (hand : List Int) (inv : List InvElem),
      reportAt iter p four (Move.deal seed hands more :: pre, t) =
        (inGenerator (discardReasoning iter p (Move.discard p t).event hand inv (finalMelds (meldsOf p pre)))).map
          (fun r => { r with somebodyRichii := pre.any (fun m => decide (m.event.tag = "REACH".toList)) }) ∧
      hand.Nodup ∧ (∀ x, x ∈ hand ↔ Held p x (Move.deal seed hands more :: pre)) ∧
      (∀ n, InvElem.num n ∈ inv ↔ ((if four then 0 else 36) ≤ n ∧ n < 136) ∧ some n ≠ seed.getLast? ∧
        ∀ m ∈ pre, ¬ ShowsButZero n m) ∧
      (∀ a b c, InvElem.tup a b c ∈ inv ↔ four = false ∧ a = 0 ∧ (b = 0 ∨ b = 8) ∧ 0 ≤ c ∧ c < 4) := by
  obtain ⟨l, a1, a2, a3⟩ := C32_after_deal p [] List.nodup_nil seed hands more pre hm
  obtain ⟨b, b1, b2, b3⟩ := C33_invisible four (initialInvisible four) seed hands more pre (fun m h => (hm m h).1) hd
  have c1 := C34_melds p [] seed hands more pre (fun m h => (hm m h).1) hd
  refine ⟨l, b, ?_, a2, a3, b2, b3⟩
  rw [reportAt_eq (pass_states a1 b1 c1)]
  simp only [handValue, invisibleValue, meldsValue, bind]
  have hr : (Move.deal seed hands more :: pre).any (fun m => decide (m.event.tag = "REACH".toList)) =
      pre.any (fun m => decide (m.event.tag = "REACH".toList)) := by
    rw [List.any_cons]
    have : decide ((Move.deal seed hands more).event.tag = "REACH".toList) = false := by
      simp [Move.event]
    rw [this, Bool.false_or]
  rw [hr]
  generalize inGenerator _ = x
  cases x <;> rfl

/-- **C58.** When a report can be made.  For a player with `k` melds holding the right number, 14 - 3`k`, of
    different tiles: not when the hand has already won (for one of the win types looked at), in which case
    `next` raises `StopIteration`; otherwise always, except that the rate is a division by zero when the expected
    discards have no useful tile left. -/
theorem C58_outcome (iter : List Int → List Int) (hi : ∀ l, (iter l).Perm l) (player : Fin 4) (e : Event)
    (hand : List Int) (hh : NumberHand hand) (inv : List InvElem) (melds : List Meld) (hk : meldCount melds ≤ 4)
    (hs : (hand.length : Int) = 14 - 3 * meldCount melds) (n : Int) (he : playerDiscard player e = some n) (hm : n ∈ hand)
    (hmt : ∀ m ∈ melds, ∀ x ∈ m.selfTiles ++ m.borrowedTiles, 0 ≤ x ∧ x < 136) :
    ((∃ w ∈ checkedWins (meldCount melds), Wins w (heldKinds hand)) →
      discardReasoning iter player e hand inv melds = .error .stopIteration) ∧
    ((∀ w ∈ checkedWins (meldCount melds), ¬ Wins w (heldKinds hand)) →
      ∃ a, analyse iter hand inv melds = .ok a ∧ a.merged ≠ [] ∧
        ((∃ x ∈ a.merged, BestItem a.merged x ∧ x.count = 0) →
          discardReasoning iter player e hand inv melds = .error .zeroDivision) ∧
        ((∀ x ∈ a.merged, BestItem a.merged x → x.count ≠ 0) →
          ∃ r, discardReasoning iter player e hand inv melds = .ok r)) := by
  obtain ⟨a, ha⟩ := analyse_ok hi hh inv melds hk (by omega)
  have hnil := merged_nil_iff hi hh hs ha
  constructor
  · intro hw
    have hm0 := hnil.2 hw
    unfold discardReasoning
    simp only [ha, (expected_eq a.merged).1 hm0, bind, Except.bind]
  · intro hw
    have hne : a.merged ≠ [] := by
      intro h0
      obtain ⟨w, w1, w2⟩ := hnil.1 h0
      exact hw w w1 w2
    refine ⟨a, ha, hne, ?_⟩
    obtain ⟨items, your, hit, hy⟩ := your_ok hi hh hs ha hm
    have hex := (expected_eq a.merged).2 hne
    obtain ⟨best, more, hbm⟩ : ∃ best more, a.merged.filter (fun x => decide (BestItem a.merged x)) = best :: more := by
      cases hf : a.merged.filter (fun x => decide (BestItem a.merged x)) with
      | cons b m => exact ⟨b, m, rfl⟩
      | nil =>
        exfalso
        have h' := hex
        rw [hf] at h'
        unfold expectedReasonings at h'
        split at h'
        · cases h'
        · injection h' with h'; cases h'
    rw [hbm] at hex
    have hbest : best ∈ a.merged ∧ BestItem a.merged best := by
      have : best ∈ a.merged.filter (fun x => decide (BestItem a.merged x)) := by rw [hbm]; simp
      simpa using this
    have hsame : ∀ x ∈ a.merged, BestItem a.merged x → x.count = best.count := by
      intro x hx hb
      have e1 := hb best hbest.1
      have e2 := hbest.2 x hx
      omega
    have hN : (a.invisible.length : Int) = 0 → best.count = 0 := by
      intro h0
      have : a.invisible = [] := List.length_eq_zero_iff.1 (by omega)
      have hc := (merged_items hi hh.2 ha best hbest.1).1.2.2
      rw [this] at hc
      exact usefulCount_empty hc
    have hstrs : ∃ strs, melds.mapM (fun m => tileNames (m.selfTiles ++ m.borrowedTiles)) = .ok strs := by
      apply exists_mapM
      intro m hm'
      unfold tileNames
      apply exists_mapM
      intro x hx
      rw [(tileOf_spec (hmt m hm' x hx)).1]
      exact ⟨_, rfl⟩
    obtain ⟨strs, hstrs⟩ := hstrs
    obtain ⟨w1, w2⟩ := wrongRate_outcome (your := your) hN
    constructor
    · rintro ⟨x, hx, hb, hc⟩
      have h0 := w1 (by rw [← hsame x hx hb]; exact hc)
      unfold discardReasoning
      have hidx : pyIdx (best :: more) 0 = .ok best := rfl
      simp only [ha, hex, he, (tileOf_spec (hh.2 n hm)).1, hit, hy, hidx, h0, bind, Except.bind, pure, Except.pure]
    · intro hall
      obtain ⟨q, hq⟩ := w2 (hall best hbest.1 hbest.2)
      exact ⟨_, discardReasoning_of ha hex he (tileOf_spec (hh.2 n hm)).1 hit hy hq hstrs⟩

/-- a game in which player 0 draws the winning tile and discards it -/
def wonGame : List Move :=
  [.deal [0, 0, 0, 2, 5, 40] (fun q => if q = 0 then [0, 1, 2, 4, 5, 6, 8, 9, 10, 12, 13, 14, 17] else [60, 61]) [],
   .draw 0 18, .discard 0 18]

set_option maxRecDepth 100000 in
/-- **C58** "every discard gets a report" fails: the whole call raises `RuntimeError` for that game. -/
theorem C58_won_hand_fails : ∃ e, gameReasonList id 0 true (wonGame.map Move.event) = .error e ∧ e = .runtimeError := by
  have h : (match gameReasonList id 0 true (wonGame.map Move.event) with
      | .ok _ => none | .error e => some e) = some PyErr.runtimeError := by decide +kernel
  cases hg : gameReasonList id 0 true (wonGame.map Move.event) with
  | ok l => rw [hg] at h; cases h
  | error e => rw [hg] at h; exact ⟨e, rfl, by injection h⟩

/-- instances of `C58_outcome`: two tiles after four melds.  5p and 6p: a report.  All copies seen: a division by
    zero.  A pair: the hand has won. -/
example : NumberHand [53, 57] ∧ (([53, 57] : List Int).length : Int) = 14 - 3 * meldCount openMelds ∧
    (discardReasoning id 0 (Move.discard 0 53).event [53, 57] allNumbers openMelds).toOption.isSome = true ∧
    (match discardReasoning id 0 (Move.discard 0 53).event [53, 57] [.num 0] openMelds with
      | .error e => some e | .ok _ => none) = some .zeroDivision ∧
    (match discardReasoning id 0 (Move.discard 0 53).event [53, 54] allNumbers openMelds with
      | .error e => some e | .ok _ => none) = some .stopIteration := by
  refine ⟨?_, ?_, ?_, ?_, ?_⟩
  · unfold NumberHand; decide
  all_goals decide +kernel

/-! ### C62, whenever the merged list is right -/

theorem wrongRate_upper (iter : List Int → List Int) (hi : ∀ l, (iter l).Perm l) (player : Fin 4) (e : Event)
    (hand : List Int) (hn : ∀ n ∈ hand, 0 ≤ n ∧ n < 136) (inv : List InvElem) (melds : List Meld)
    (r : RoundReasoning) (h : discardReasoning iter player e hand inv melds = .ok r) (n : Int)
    (he : playerDiscard player e = some n) (hm : n ∈ hand) : r.wrongRate ≤ 1 := by
  obtain ⟨a, best, more, m, tile, items, your, rate, strs, ha, hex, hp, ht, hit, hy, hrate, _, rfl⟩ := discardReasoning_inv h
  rw [he] at hp
  cases hp
  obtain ⟨s1, s2, s3, s4⟩ := tileOf_spec (hn n hm)
  rw [s1] at ht
  cases ht
  obtain ⟨y0, y1, y2, _⟩ := your_choice hi hn ha hm hit hy
  have hmi := merged_items hi hn ha
  have hne : a.merged ≠ [] := by
    intro hm'
    rw [(expected_eq a.merged).1 hm'] at hex
    cases hex
  rw [(expected_eq a.merged).2 hne, Except.ok.injEq] at hex
  have hb : best ∈ a.merged := by
    have : best ∈ a.merged.filter (fun x => decide (BestItem a.merged x)) := by rw [hex]; simp
    exact (List.mem_filter.1 this).1
  have cy := item_count y1 y2
  have cb := item_count (hmi best hb).1 (hmi best hb).2.1
  have yq : (0 : ℚ) ≤ your.count := by exact_mod_cast cy.1
  have bq : (0 : ℚ) ≤ best.count := by exact_mod_cast cb.1
  show rate ≤ 1
  rcases chosen_step hi hn ha hm hit hy hb with hst | hst
  · rw [(wrongRate_same hrate hst).2]
    exact rest_upper (div_nonneg yq bq)
  · rw [(wrongRate_next hrate hst).2.2]
    refine rest_upper (div_nonneg yq (mul_nonneg bq ?_))
    exact_mod_cast Int.natCast_nonneg _

/-- the tiles there are -/
def realTiles : List Tile := allKinds.map (fun k => ⟨k.1, k.2, false⟩) ++ [⟨.m, 0, true⟩, ⟨.p, 0, true⟩, ⟨.s, 0, true⟩]

theorem mem_realTiles {t : Tile} (h : RealTile t) : t ∈ realTiles := by
  obtain ⟨c, n, a⟩ := t
  unfold realTiles
  rw [List.mem_append]
  cases a with
  | false => exact .inl (List.mem_map.2 ⟨(c, n), mem_allKinds.2 h.1, rfl⟩)
  | true =>
    obtain ⟨h1, h2⟩ := h.2 rfl
    simp only at h1 h2
    subst h1
    right
    cases c <;> first | exact absurd rfl h2 | decide

theorem names_table : ∀ s ∈ realTiles, ∀ t ∈ realTiles, s.str = t.str → s.view = t.view := by decide +kernel

theorem name_view {s t : Tile} (hs : RealTile s) (ht : RealTile t) (h : s.str = t.str) : s.view = t.view :=
  names_table s (mem_realTiles hs) t (mem_realTiles ht) h

/-- **C62.** Whenever the merged reasonings are right, and no five is useful after their discards of which the red one is in the
    hand: the wrong rate is 0 when the discard is among the expected ones.  If also none is missing, the wrong rate is not negative
    unless such a five is useful after the discard, and when it is 0 although the discard does not raise the waiting step, the
    discard is among the expected ones, if its kind has no red five in the hand. -/
theorem C62_right (iter : List Int → List Int) (hi : ∀ l, (iter l).Perm l) (player : Fin 4) (e : Event)
    (hand : List Int) (hn : ∀ n ∈ hand, 0 ≤ n ∧ n < 136) (inv : List InvElem) (hnd : inv.Nodup)
    (h0 : ∀ n, InvElem.num n ∈ inv → 0 ≤ n) (melds : List Meld) (nn : Int)
    (hright : ∀ a, analyse iter hand inv melds = .ok a → RightItems (checkedWins (meldCount melds)) (heldKinds hand) nn a.merged)
    (hr : ∀ a, analyse iter hand inv melds = .ok a → ∀ x ∈ a.merged, ∀ u ∈ x.useful.map Tile.view, ¬ RedIn hand u)
    (r : RoundReasoning) (h : discardReasoning iter player e hand inv melds = .ok r) (n : Int)
    (he : playerDiscard player e = some n) (hm : n ∈ hand) (k : Kind) (hk : CopyOf n k) :
    (r.yourChoice.discard ∈ r.expected.map NItem.discard → r.wrongRate = 0) ∧
    ((∀ a, analyse iter hand inv melds = .ok a → ∀ k ∈ Keepers (checkedWins (meldCount melds)) (heldKinds hand) nn,
        k ∈ a.merged.map (fun x => x.discard.view)) →
      ((∀ i, StepFor (checkedWins (meldCount melds)) (minus (heldKinds hand) k) i → ∀ u,
        UsefulFor (checkedWins (meldCount melds)) (minus (heldKinds hand) k) i u → ¬ RedIn hand u) → 0 ≤ r.wrongRate) ∧
      (r.wrongRate = 0 → (∀ x ∈ r.expected, x.step = r.yourChoice.step) → ¬ RedIn hand k → inv.length ≤ 2 ^ 53 →
        r.yourChoice.discard ∈ r.expected.map NItem.discard)) := by
  obtain ⟨a, best, more, m, tile, items, your, rate, strs, ha, hex, hp, ht, hit, hy, hrate, _, rfl⟩ := discardReasoning_inv h
  rw [he] at hp
  cases hp
  obtain ⟨s1, s2, s3, s4⟩ := tileOf_spec (hn n hm)
  obtain rfl := (s3 k).2 hk
  rw [s1] at ht
  cases ht
  obtain ⟨y0, y1, y2, y3, y4, y5, y6⟩ := your_choice hi hn ha hm hit hy
  have hyour : StepFor (checkedWins (meldCount melds)) (minus (heldKinds hand) (tileOf n).view) your.step := ⟨y4, y5⟩
  obtain ⟨d2, d4⟩ := hright a ha
  have hmi := merged_from hi hn ha
  obtain ⟨tiles, lists, _, _, hinv, _⟩ := analyse_inv ha
  have hnd' : a.invisible.Nodup := by rw [hinv]; exact setSub_nodup hnd
  have h0' : TileNumbers a.invisible := by rw [hinv]; exact setSub_numbers h0
  have hne : a.merged ≠ [] := by
    intro hm'
    rw [(expected_eq a.merged).1 hm'] at hex
    cases hex
  rw [(expected_eq a.merged).2 hne, Except.ok.injEq] at hex
  have hb : best ∈ a.merged ∧ BestItem a.merged best := by
    have : best ∈ a.merged.filter (fun x => decide (BestItem a.merged x)) := by rw [hex]; simp
    simpa using this
  have hbs := (d4 best hb.1).2.1
  have hsteps := chosen_step hi hn ha hm hit hy hb.1
  have cb := count_plain hnd' h0' (hmi best hb.1).1 (plain_notRed hn (hmi best hb.1).2.2.2 (hr a ha best hb.1)) (hmi best hb.1).2.1
  have unique : ∀ {i j : Int}, StepFor (checkedWins (meldCount melds)) (minus (heldKinds hand) (tileOf n).view) i →
      StepFor (checkedWins (meldCount melds)) (minus (heldKinds hand) (tileOf n).view) j → i = j := by
    rintro i j ⟨⟨w, hw, a1⟩, a2⟩ ⟨⟨w', hw', b1⟩, b2⟩
    have := a2 w' hw' j b1
    have := b2 w hw i a1
    omega
  -- an item for the kind discarded is the item of the tile discarded
  have hitem : ∀ z ∈ a.merged, z.discard.view = (tileOf n).view → z.step = your.step ∧ z.count = your.count := by
    intro z hz hzv
    obtain ⟨z1, z2, z3⟩ := hmi z hz
    obtain ⟨w1, w2, w3, w4⟩ := d4 z hz
    have hst : z.step = your.step := by
      rw [w2]
      rw [hzv] at w1
      exact unique w1.2 hyour
    refine ⟨hst, ?_⟩
    have hkinds : ∀ u, u ∈ your.useful.map Tile.view ↔ u ∈ z.useful.map Tile.view := by
      intro u
      rw [y6 u, w4 u, hzv, ← hst, w2]
      rfl
    rw [count_plain hnd' h0' y1 (plain_notRed hn y3 (fun u hu => hr a ha z hz u ((hkinds u).1 hu))) y2,
      count_plain hnd' h0' z1 (plain_notRed hn z3.2 (hr a ha z hz)) z2]
    exact congrArg Nat.cast (unseenOf_congr (fun u => (hkinds u).symm))
  have hcb : (0 : Int) ≤ best.count := by rw [cb]; omega
  have hmore : ∀ z ∈ best :: more, z ∈ a.merged ∧ BestItem a.merged z := by
    intro z hz
    rw [← hex] at hz
    simpa using hz
  have hnorm : your.norm.discard = [(tileOf n).str] := by unfold RItem.norm; rw [y0]
  have hname : ∀ z ∈ a.merged, z.norm.discard = your.norm.discard → z.discard.view = (tileOf n).view := by
    intro z hz hzn
    rw [hnorm] at hzn
    have : z.discard.str = (tileOf n).str := by
      unfold RItem.norm at hzn
      simpa using hzn
    exact name_view (hmi z hz).1.1 s2 this
  refine ⟨?_, ?_⟩
  · intro hin
    obtain ⟨x, hx, hxd⟩ := List.mem_map.1 hin
    obtain ⟨v, hv, rfl⟩ := List.mem_map.1 hx
    obtain ⟨v1, v2⟩ := hmore v hv
    have hvd := hname v v1 hxd
    obtain ⟨i2, i3⟩ := hitem v v1 hvd
    have e1 := v2 best hb.1
    have e2 := hb.2 v v1
    obtain ⟨c1, c2⟩ := wrongRate_same hrate (by omega)
    have hc : your.count = best.count := by omega
    have hq1 : (best.count : Rat) ≠ 0 := by
      have : best.count ≠ 0 := by omega
      exact_mod_cast this
    show rate = 0
    rw [c2, hc, div_self hq1, roundDouble_one, sub_self, roundDouble_zero]
  · intro hall
    have hheld : 0 < heldKinds hand (tileOf n).view := by
      unfold heldKinds
      have : n ∈ hand.filter (fun m => decide (CopyOf m (tileOf n).view)) := by
        rw [List.mem_filter]; exact ⟨hm, by simpa using (s3 _).1 rfl⟩
      have := List.length_pos_of_mem this
      omega
    rcases hsteps with hst | hst
    · obtain ⟨c1, c2⟩ := wrongRate_same hrate hst
      obtain ⟨z, z1, hzv⟩ := List.mem_map.1 (hall a ha (tileOf n).view ⟨hheld, by rw [← hbs, ← hst]; exact hyour⟩)
      obtain ⟨z3, z4⟩ := hitem z z1 hzv
      have hzb : z.count ≤ best.count := by
        rcases hb.2 z z1 with h' | h'
        · omega
        · exact h'.2
      have hq1 : (0 : Rat) < best.count := by
        have : 0 < best.count := by omega
        exact_mod_cast this
      have hq2 : (your.count : Rat) ≤ best.count := by
        have : your.count ≤ best.count := by omega
        exact_mod_cast this
      have hd1 : (your.count : Rat) / best.count ≤ 1 := (div_le_one hq1).2 hq2
      refine ⟨fun _ => by show 0 ≤ rate; rw [c2]; exact rest_lower hd1, ?_⟩
      intro hzero _ hred hl
      have hz' : rate = 0 := hzero
      rw [c2] at hz'
      have cz := count_plain hnd' h0' (hmi z z1).1 (plain_notRed hn (hmi z z1).2.2.2 (hr a ha z z1)) (hmi z z1).2.1
      have hlen : a.invisible.length ≤ inv.length := by rw [hinv]; exact List.length_filter_le _ _
      have hbl : best.count ≤ (a.invisible.length : Int) := by rw [cb]; exact_mod_cast unseenOf_le _ _
      have hcy : (0 : Int) ≤ your.count := by rw [← z4, cz]; omega
      have hcount : your.count = best.count := rest_zero (by omega) (by omega) (by omega) hcy hz'
      have hzbest : BestItem a.merged z := by
        intro y hy'
        rcases hb.2 y hy' with h' | h'
        · left; omega
        · right; omega
      have hzin : z ∈ best :: more := by
        rw [← hex, List.mem_filter]
        exact ⟨z1, by simpa using hzbest⟩
      refine List.mem_map.2 ⟨z.norm, List.mem_map.2 ⟨z, hzin, rfl⟩, ?_⟩
      have hza : z.discard.aka = false := by
        cases ha' : z.discard.aka with
        | false => rfl
        | true => exact absurd (hzv ▸ (hmi z z1).2.2.1.red hn ha') hred
      have hta : (tileOf n).aka = false := by
        cases ha' : (tileOf n).aka with
        | false => rfl
        | true => exact absurd ⟨n, hm, red_kind (hn n hm) ha'⟩ hred
      have hsame : z.discard = tileOf n := by
        clear y0
        generalize tileOf n = t at *
        cases hd : z.discard with
        | mk c k b =>
          rw [hd] at hzv hza
          cases t with
          | mk c' k' b' =>
            simp only at hza hta
            subst hza; subst hta
            simp only [Tile.view] at hzv
            simp at hzv
            simp [hzv]
      rw [hnorm]
      unfold RItem.norm
      rw [hsame]
    · obtain ⟨c1, c2, c3⟩ := wrongRate_next hrate hst
      refine ⟨fun hyr => ?_, fun _ hall => absurd (hall best.norm (by simp)) (by simp only [RItem.norm]; omega)⟩
      have cy := count_plain hnd' h0' y1 (plain_notRed hn y3 (fun u hu => hyr _ hyour u ((y6 u).1 hu))) y2
      have hle : your.count ≤ (a.invisible.length : Int) := by rw [cy]; exact_mod_cast unseenOf_le _ _
      have hq1 : (1 : Rat) ≤ best.count := by
        have : 1 ≤ best.count := by omega
        exact_mod_cast this
      have hq2 : (0 : Rat) < (a.invisible.length : Int) := by
        have : (0 : Int) < a.invisible.length := by omega
        exact_mod_cast this
      have hq4 : (your.count : Rat) ≤ (a.invisible.length : Int) := by exact_mod_cast hle
      have hq5 : ((a.invisible.length : Int) : Rat) ≤ best.count * (a.invisible.length : Int) := by nlinarith
      have hpos : (0 : Rat) < best.count * (a.invisible.length : Int) := by linarith
      have hd1 : (your.count : Rat) / (best.count * (a.invisible.length : Int)) ≤ 1 := (div_le_one hpos).2 (by linarith)
      show 0 ≤ rate
      rw [c3]
      exact rest_lower hd1

theorem open_right {iter : List Int → List Int} (hi : ∀ l, (iter l).Perm l) {hand : List Int} (hn : ∀ n ∈ hand, 0 ≤ n ∧ n < 136)
    {inv : List InvElem} {melds : List Meld} (hk : 1 ≤ meldCount melds) {a : Analysis} (ha : analyse iter hand inv melds = .ok a) :
    ∃ nn, StepFor (checkedWins (meldCount melds)) (heldKinds hand) nn ∧
      RightItems (checkedWins (meldCount melds)) (heldKinds hand) nn a.merged ∧
      ∀ k ∈ Keepers (checkedWins (meldCount melds)) (heldKinds hand) nn, k ∈ a.merged.map (fun x => x.discard.view) := by
  obtain ⟨_, nn, d1, d2, d3, d4⟩ := C57_open iter hi hand hn inv melds hk a ha
  have hw : checkedWins (meldCount melds) = [.normal 1 (4 - meldCount melds)] := by
    unfold checkedWins; rw [if_neg (by omega)]
  rw [hw]
  have stepFor : ∀ (h : Kind → Int) (w : Pattern) (j : Int), StepFor [w] h j ↔ IsStep true w h j := by
    intro h w j
    unfold StepFor
    simp only [List.mem_cons, List.not_mem_nil, or_false, exists_eq_left, forall_eq]
    exact ⟨fun x => x.1, fun x => ⟨x, fun m hm => le_of_eq (IsStep.unique x hm)⟩⟩
  refine ⟨nn, (stepFor _ _ _).2 d1, ⟨d2, ?_⟩, ?_⟩
  · intro x hx
    have hxk := (d3 x.discard.view).1 (List.mem_map.2 ⟨x, hx, rfl⟩)
    refine ⟨⟨hxk.1, (stepFor _ _ _).2 hxk.2⟩, (d4 x hx).1, (d4 x hx).2.1, ?_⟩
    intro u
    rw [(d4 x hx).2.2]
    unfold UsefulFor
    simp only [List.mem_cons, List.not_mem_nil, or_false, exists_eq_left]
    exact ⟨fun z => ⟨hxk.2, z⟩, fun z => z.2⟩
  · rintro k ⟨k1, k2⟩
    exact (d3 k).2 ⟨k1, (stepFor _ _ _).1 k2⟩

/-- **C62.** For a player with melds, none of whose discards that keep the waiting step makes a five useful of which the red one
    is in the hand: the wrong rate, a float, is at most 1, and 0 when the discard is among the expected ones.  It is not negative
    unless such a five is useful after the discard itself.  And when it is 0 although the discard does not raise the waiting step,
    the discard is among the expected ones, if its kind has no red five in the hand. -/
theorem C62_open (iter : List Int → List Int) (hi : ∀ l, (iter l).Perm l) (player : Fin 4) (e : Event)
    (hand : List Int) (hn : ∀ n ∈ hand, 0 ≤ n ∧ n < 136) (inv : List InvElem) (hnd : inv.Nodup)
    (h0 : ∀ n, InvElem.num n ∈ inv → 0 ≤ n) (melds : List Meld) (hk : 1 ≤ meldCount melds)
    (hr : ∀ s, StepFor (checkedWins (meldCount melds)) (heldKinds hand) s → ∀ d ∈ Keepers (checkedWins (meldCount melds)) (heldKinds hand) s,
      ∀ u, UsefulFor (checkedWins (meldCount melds)) (minus (heldKinds hand) d) s u → ¬ RedIn hand u)
    (r : RoundReasoning) (h : discardReasoning iter player e hand inv melds = .ok r) (n : Int)
    (he : playerDiscard player e = some n) (hm : n ∈ hand) (k : Kind) (hc : CopyOf n k) :
    r.wrongRate ≤ 1 ∧
    (r.yourChoice.discard ∈ r.expected.map NItem.discard → r.wrongRate = 0) ∧
    ((∀ i, StepFor (checkedWins (meldCount melds)) (minus (heldKinds hand) k) i → ∀ u,
      UsefulFor (checkedWins (meldCount melds)) (minus (heldKinds hand) k) i u → ¬ RedIn hand u) → 0 ≤ r.wrongRate) ∧
    (r.wrongRate = 0 → (∀ x ∈ r.expected, x.step = r.yourChoice.step) → ¬ RedIn hand k → inv.length ≤ 2 ^ 53 →
      r.yourChoice.discard ∈ r.expected.map NItem.discard) := by
  obtain ⟨a, _, _, _, _, _, _, _, _, ha, _⟩ := discardReasoning_inv h
  obtain ⟨nn, o1, o2, o3⟩ := open_right hi hn hk ha
  obtain ⟨k1, k2⟩ := C62_right iter hi player e hand hn inv hnd h0 melds nn (fun a' ha' => by rw [ha] at ha'; cases ha'; exact o2)
    (fun a' ha' x hx u hu => by
      rw [ha] at ha'; cases ha'
      obtain ⟨d1, _, _, d4⟩ := o2.2 x hx
      exact hr nn o1 _ d1 u ((d4 u).1 hu)) r h n he hm k hc
  obtain ⟨k2, k3⟩ := k2 (fun a' ha' => by rw [ha] at ha'; cases ha'; exact o3)
  exact ⟨wrongRate_upper iter hi player e hand hn inv melds r h n he hm, k1, k2, k3⟩

end Verif.Props
