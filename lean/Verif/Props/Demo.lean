import Verif.Proofs.NumberText
import Verif.Proofs.Demo
import Verif.Props.WinRateFloat

/-! # The dialogue and the report of the win-rate experiment (C105) -/
namespace Verif.Props
open Verif.Py Verif.Model Verif.Spec Verif.Proofs

/-- **C105.** Every text typed for the hand that does not write exactly 14 tiles is answered with the number of tiles it writes,
    and the hand is asked for again; nothing else changes. -/
theorem C105_asks_again (numpy : List (List Rat) → List (Rat × Rat)) (rand : Nat → Nat → Nat) (bad rest : List Str)
    (hb : ∀ l ∈ bad, (written l).length ≠ 14) :
    demoMain numpy rand (bad ++ rest) =
      (bad.map (fun l => "Input hand should be 14 tiles, e.g. 123m067p9s1234567z. You have input ".toList ++
          natDigits (written l).length ++ " legal tiles".toList) ++ (demoMain numpy rand rest).1,
        (demoMain numpy rand rest).2) := by
  have e : (fun l => wrongHandText (tileSetFromString l)) = (fun l : Str =>
      "Input hand should be 14 tiles, e.g. 123m067p9s1234567z. You have input ".toList ++
        natDigits (written l).length ++ " legal tiles".toList) := by
    funext l
    unfold wrongHandText
    rw [typed_len]
    rfl
  unfold demoMain
  rw [askHand_bad hb, e]
  rcases h : askHand rest with ⟨out, r⟩
  cases r with
  | none => rfl
  | some x =>
    obtain ⟨hand, l⟩ := x
    simp only
    cases demoReport numpy rand hand l with
    | none => rfl
    | some y =>
      cases y with
      | error x => rfl
      | ok report => simp only [List.append_assoc]

/-- the number of experiments a line asks for: its number, or 1000 if it is blank -/
def AsksFor (line : Str) (n : Nat) : Prop := IntText line n ∨ (∀ c ∈ line, White c) ∧ n = 1000

theorem tryCount_of {line : Str} {n : Nat} (h : AsksFor line n) : tryCount line = .ok n := by
  unfold tryCount
  rcases h with h | ⟨h, rfl⟩
  · rw [(pyInt_iff line n).2 h, if_neg]
    intro ha
    obtain ⟨d, h1, h2⟩ := int_digit h
    have h3 := List.all_eq_true.1 ha d h1
    rw [digit_not isSpace (by decide +kernel) h2] at h3
    cases h3
  · rw [if_pos (List.all_eq_true.2 (fun c hc => (isSpace_iff c).2 (h c hc)))]; rfl

open Classical in
/-- the line about one discard: the tile, how many of `n` experiments it won, this in percent, and the two pick rates in percent, each
    percentage with two decimals -/
def DiscardLine (hand : TileSet) (samples : List (List Tile)) (e : Tile × Rat × Rat) (text : Str) : Prop :=
  ∃ p r a : Str, ∃ qp qr qa : ℚ,
    text = "discard ".toList ++ e.1.str ++ ": ".toList ++ p ++ "% win rate (".toList ++
      natDigits (samples.filter (fun ts => decide (Completes hand e.1.view ts))).length ++ "/".toList ++
      natDigits samples.length ++ "), ".toList ++ r ++ "% rough pick rate, ".toList ++ a ++ "% accurate pick rate".toList ∧
    (∀ t ∈ [p, r, a], ∃ x y, t = x ++ '.' :: y ∧ y.length = 2) ∧
    WritesNum p qp ∧ WritesNum r qr ∧ WritesNum a qa ∧
    |qp - 100 * (samples.filter (fun ts => decide (Completes hand e.1.view ts))).length / samples.length| ≤ 1 / 200 + 1 / 2 ^ 46 ∧
    |qr - 100 * e.2.1| ≤ 1 / 200 + |100 * e.2.1| / 2 ^ 53 ∧
    |qa - 100 * e.2.2| ≤ 1 / 200 + |100 * e.2.2| / 2 ^ 53

theorem shown_percent (x : ℚ) : ∃ a b q, floatText 2 (roundDouble x) = a ++ '.' :: b ∧ b.length = 2 ∧
    WritesNum (floatText 2 (roundDouble x)) q ∧ |q - x| ≤ 1 / 200 + |x| / 2 ^ 53 := by
  obtain ⟨a, b, q, h1, h2, h3, h4⟩ := floatText_writes 2 (roundDouble x)
  refine ⟨a, b, q, h1, h2, h3, ?_⟩
  have h5 := roundDouble_error x
  have h6 := abs_sub_le q (roundDouble x) x
  norm_num at h4
  linarith

/-- **C105.** For a text that writes 14 tiles, any number of draws and any number of experiments above zero: the
    experiments draw as they should (`samples`; none for a number below zero), and if some discard wins in one of them, the report has the hand, the number of
    draws, and one line for every kind of tile in the hand, those with a higher accurate rate first and equal ones in the order
    of the hand.  If no discard ever wins, nothing is printed and the program ends with `ZeroDivisionError`. -/
theorem C105_report (numpy : List (List Rat) → List (Rat × Rat)) (rand : Nat → Nat → Nat) (hr : ∀ i j, rand i j < 2 ^ 53)
    (line : Str) (hl : (written line).length = 14) (d : Int) (n : Nat) (hn : 0 < n)
    (drawLine : Str) (hdraw : IntText drawLine d) (tryLine : Str) (ht : AsksFor tryLine n)
    (rest : List Str)
    (hp : ∀ m, (numpy m).length = m.length) (hn2 : n ≤ 2 ^ 50) :
    ∃ samples : List (List Tile), samples.length = n ∧
      (∀ ts ∈ samples, ts.length = d.toNat ∧ (∀ t ∈ ts, RealTile t) ∧
        FromWall (fun k => (((written line).map Tile.view).count k : Int)) ts) ∧
      ((∃ ts ∈ samples, ∃ k ∈ (written line).map Tile.view, Completes (tileSetFromString line) k ts) →
        ∃ matrix, conditionMatrixF (winTrialsF (tileSetFromString line) samples) n
            ((tileSetFromString line).map (fun e => e.1.view)) = .ok matrix ∧
        ∃ rows : List (Tile × Rat × Rat), ∃ texts : List Str,
          demoMain numpy rand (line :: drawLine :: tryLine :: rest) =
            (("for input hand <".toList ++ TileSet.str (tileSetFromString line) ++ ">, remain ".toList ++ pyStrInt d ++
              " draws:".toList) :: texts, some (.ok ())) ∧
          List.Forall₂ (DiscardLine (tileSetFromString line) samples) rows texts ∧
          rows.Perm (((tileSetFromString line).map Prod.fst).zip (numpy matrix)) ∧
          (rows.map (fun e => e.1.view)).Nodup ∧
          (∀ k, k ∈ rows.map (fun e => e.1.view) ↔ k ∈ (written line).map Tile.view) ∧
          rows.Pairwise (fun a b => b.2.2 ≤ a.2.2) ∧
          ∀ rate : ℚ, rows.filter (fun e => decide (e.2.2 = rate)) =
            (((tileSetFromString line).map Prod.fst).zip (numpy matrix)).filter
              (fun e => decide (e.2.2 = rate))) ∧
      ((¬ ∃ ts ∈ samples, ∃ k ∈ (written line).map Tile.view, Completes (tileSetFromString line) k ts) →
        demoMain numpy rand (line :: drawLine :: tryLine :: rest) = ([], some (.error .zeroDivision))) := by
  classical
  have hh := typed_ok line
  have hent : EnteredHand (tileSetFromString line) := ⟨hh, typed_pos line⟩
  have hcont := typed_content line
  have hlen14 : TileSet.len (tileSetFromString line) = 14 := by rw [typed_len, hl]; rfl
  have hheld := typed_held line
  have hne : tileSetFromString line ≠ [] := by
    intro e
    rw [e] at hlen14
    simp [TileSet.len, Counter.total] at hlen14
  have hask : askHand (line :: drawLine :: tryLine :: rest) =
      ([], some (tileSetFromString line, drawLine :: tryLine :: rest)) := by
    rw [askHand]
    simp [hlen14]
  generalize tileSetFromString line = hand at *
  obtain ⟨samples, s1, s2, s3, s4⟩ := samples_drawn hand hh ((List.range n).map (fun i => (List.range d.toNat).map (rand i)))
    (by
      intro rs hrs r hrr
      obtain ⟨i, _, rfl⟩ := List.mem_map.1 hrs
      obtain ⟨j, _, rfl⟩ := List.mem_map.1 hrr
      exact hr i j)
  have hsl : samples.length = n := by
    have := congrArg List.length s3
    simpa using this
  have htl : ∀ ts ∈ samples, ts.length = d.toNat := by
    intro ts hts
    have : ts.length ∈ samples.map List.length := List.mem_map_of_mem hts
    rw [s3] at this
    simp only [List.map_map, List.mem_map, Function.comp_apply, List.length_map, List.length_range] at this
    obtain ⟨_, _, e⟩ := this
    exact e.symm
  have hpos : samples ≠ [] := by rintro rfl; simp at hsl; omega
  have htiles : (possibleDiscard hand).map (fun d => d.1) = hand.map Prod.fst := by
    unfold possibleDiscard
    rw [List.map_map]; rfl
  have hviews : (hand.map Prod.fst).map Tile.view = heldList hand := by
    unfold heldList
    rw [List.map_map]; rfl
  obtain ⟨t1, t2, _⟩ := C106_counters hand hent samples s2 (by omega)
  have hmain : demoMain numpy rand (line :: drawLine :: tryLine :: rest) =
      match conditionMatrixF (winTrialsF hand samples) (n : Int) (heldList hand) with
      | .ok m => (headText hand d :: (pickOrder (hand.map Prod.fst) (numpy m)).map
          (discardText (winTrialsF hand samples) n), some (.ok ()))
      | .error x => ([], some (.error x)) := by
    unfold demoMain
    rw [hask]
    simp only [demoReport, (pyInt_iff drawLine d).2 hdraw, tryCount_of ht, Int.toNat_natCast, htiles, hviews]
    show (match (some (do
        let samples ← match drawSamples hand ((List.range n).map (fun i => (List.range d.toNat).map (rand i))) with
          | some s => .ok s
          | none => .error .indexError
        let m ← conditionMatrixF (winTrialsF hand samples) (n : Int) (heldList hand)
        pure (headText hand d :: (pickOrder (hand.map Prod.fst) (numpy m)).map
          (discardText (winTrialsF hand samples) n))) : Option (Except PyErr (List Str))) with
      | none => _
      | some (.error x) => _
      | some (.ok report) => _) = _
    rw [s1]
    cases hm : conditionMatrixF (winTrialsF hand samples) (n : Int) (heldList hand) with
    | ok m => simp [bind, Except.bind, pure, Except.pure, hm]
    | error x => simp [bind, Except.bind, hm]
  have hwins : (∃ ts ∈ samples, ∃ k ∈ (written line).map Tile.view, Completes hand k ts) ↔
      ∃ ts ∈ samples, ∃ k ∈ heldList hand, Completes hand k ts := by
    simp only [hheld]
  obtain ⟨m1, m2⟩ := C64_matrix_exists hand hent hne samples s2 hpos
  obtain ⟨q1, q2⟩ := C106_matrix hand hent hne samples s2 (by omega)
  rw [hsl] at m1 m2 q1 q2
  refine ⟨samples, hsl, fun ts hts => ⟨htl ts hts, s2 ts hts, ?_⟩, ?_, ?_⟩
  · rw [show (fun k => (((written line).map Tile.view).count k : Int)) = content hand from funext (fun k => (hcont k).symm)]
    exact s4 ts hts
  · intro hw
    obtain ⟨m', hm'⟩ := m1.2 (hwins.1 hw)
    obtain ⟨m, hm, hnear⟩ := q2 m' hm'
    rw [hm] at hmain
    have hml : m.length = hand.length := by
      obtain ⟨_, _, e⟩ := matrix_ok hand hne samples m' (winTrials hand samples) (by rw [hsl]; exact hm')
      rw [hnear.length_eq, e, List.length_map, heldList, List.length_map]
    have hperm : (pickOrder (hand.map Prod.fst) (numpy m)).Perm
        ((hand.map Prod.fst).zip (numpy m)) := pySorted_perm _
    have hzip : ((hand.map Prod.fst).zip (numpy m)).map (fun e => e.1.view) = heldList hand := by
      have : ((hand.map Prod.fst).zip (numpy m)).map Prod.fst = hand.map Prod.fst :=
        List.map_fst_zip (by rw [List.length_map, hp, hml])
      rw [← hviews, ← this, List.map_map, this]
      rfl
    have hkeys := hperm.map (fun e : Tile × Rat × Rat => e.1.view)
    rw [hzip] at hkeys
    have hstable := fun rate : ℚ => pySorted_filter (lt := fun a b : Tile × Rat × Rat => decide (b.2.2 < a.2.2))
      (q := fun e => decide (e.2.2 = rate))
      (fun a b c h => by
        simp only [decide_eq_true_eq] at h ⊢
        by_cases hb : b.2.2 < a.2.2
        · exact Or.inl hb
        · exact Or.inr (lt_of_lt_of_le h (not_lt.1 hb)))
      (fun a b h => by
        simp only [decide_eq_true_eq, decide_eq_false_iff_not] at h ⊢
        exact not_lt.2 h.le)
      (fun a b h1 h2 => by
        simp only [decide_eq_true_eq, decide_eq_false_iff_not] at h1 h2 ⊢
        rw [h1, h2]
        exact lt_irrefl _)
      ((hand.map Prod.fst).zip (numpy m))
    refine ⟨m, hm, _, _, hmain, ?_, hperm, ?_, ?_, ?_, fun rate => (hstable rate).2⟩
    · rw [List.forall₂_map_right_iff, List.forall₂_same]
      intro e he
      have hk : e.1.view ∈ heldList hand := hkeys.mem_iff.1 (List.mem_map_of_mem (f := fun e : Tile × Rat × Rat => e.1.view) he)
      obtain ⟨w1, w2⟩ := C63_win_counts hand hent samples s2 e.1.view hk
      rw [← t1] at w1 w2
      obtain ⟨pa, pb, qp, p1, p2, p3, p4⟩ :=
        shown_percent ((((winTrialsF hand samples).win e.1.view * 100 : Int) : ℚ) / ((n : Int) : ℚ))
      obtain ⟨ra, rb, qr, r1, r2, r3, r4⟩ := shown_percent (e.2.1 * 100)
      obtain ⟨aa, ab, qa, a1, a2, a3, a4⟩ := shown_percent (e.2.2 * 100)
      refine ⟨_, _, _, qp, qr, qa, ?_, ?_, p3, r3, a3, ?_, ?_, ?_⟩
      · unfold discardText
        rw [w1, hsl]
        rfl
      · intro t ht
        simp only [List.mem_cons, List.not_mem_nil, or_false] at ht
        rcases ht with rfl | rfl | rfl
        · exact ⟨pa, pb, p1, p2⟩
        · exact ⟨ra, rb, r1, r2⟩
        · exact ⟨aa, ab, a1, a2⟩
      · rw [hsl]
        rw [w1] at p4
        rw [w1, hsl] at w2
        generalize (samples.filter (fun ts => decide (Completes hand e.1.view ts))).length = w at p4 w2 ⊢
        have hn' : (0 : ℚ) < n := by exact_mod_cast hn
        have e1 : (((w : Int) * 100 : Int) : ℚ) / ((n : Int) : ℚ) = 100 * w / n := by
          push_cast
          rw [mul_comm]
        rw [e1] at p4
        have h0 : (0 : ℚ) ≤ 100 * w / n := by positivity
        have h1 : (100 : ℚ) * w / n ≤ 100 := by
          rw [div_le_iff₀ hn']
          have : (w : ℚ) ≤ n := by exact_mod_cast w2
          linarith
        rw [abs_of_nonneg h0] at p4
        have h2 : 100 * (w : ℚ) / n / 2 ^ 53 ≤ 1 / 2 ^ 46 := by
          rw [div_le_div_iff₀ (by positivity) (by positivity)]
          have : (100 : ℚ) * 2 ^ 46 ≤ 1 * 2 ^ 53 := by norm_num
          have h3 := mul_le_mul_of_nonneg_right h1 (by positivity : (0 : ℚ) ≤ 2 ^ 46)
          linarith
        linarith
      · rw [mul_comm 100 e.2.1]; exact r4
      · rw [mul_comm 100 e.2.2]; exact a4
    · exact hkeys.nodup_iff.2 (heldList_nodup hh)
    · intro k
      rw [hkeys.mem_iff, hheld]
    · refine (hstable 0).1.imp ?_
      intro a b h
      simpa using h
  · intro hw
    have := (q1 _).2 (m2 (fun h => hw (hwins.2 h)))
    rw [this] at hmain
    exact hmain

/-- **C105.** After a text that writes 14 tiles, nothing is printed and the program ends: at the end of the input, with `ValueError`
    for a number of draws that is no number, for a number of experiments that is neither blank nor a number, and with
    `ZeroDivisionError` for a number of experiments that is not above zero. -/
theorem C105_stops (numpy : List (List Rat) → List (Rat × Rat)) (rand : Nat → Nat → Nat) (line : Str) (hl : (written line).length = 14)
    (d : Int) (drawLine : Str) (hdraw : IntText drawLine d) (word : Str) (hw : ∀ k, ¬ IntText word k)
    (zero : Str) (z : Int) (hz0 : z ≤ 0) (hz : IntText zero z) (rest : List Str) :
    demoMain numpy rand [line] = ([], none) ∧
    demoMain numpy rand [line, drawLine] = ([], none) ∧
    demoMain numpy rand (line :: word :: rest) = ([], some (.error .valueError)) ∧
    ((∃ c ∈ word, ¬ White c) → demoMain numpy rand (line :: drawLine :: word :: rest) = ([], some (.error .valueError))) ∧
    demoMain numpy rand (line :: drawLine :: zero :: rest) = ([], some (.error .zeroDivision)) := by
  have hlen14 : TileSet.len (tileSetFromString line) = 14 := by rw [typed_len, hl]; rfl
  have hask : ∀ l, askHand (line :: l) = ([], some (tileSetFromString line, l)) := by
    intro l
    rw [askHand]
    simp [hlen14]
  have hi : pyInt word = .error .valueError := (int_refused word).2 hw
  unfold demoMain
  simp only [hask, demoReport, (pyInt_iff drawLine d).2 hdraw, hi, true_and]
  refine ⟨?_, ?_⟩
  · rintro ⟨c, hc, hs⟩
    unfold tryCount
    rw [if_neg (fun h => hs ((isSpace_iff c).1 (List.all_eq_true.1 h c hc))), hi]
    rfl
  · have hne : (possibleDiscard (tileSetFromString line)).map (fun d => d.1) ≠ [] := by
      intro e
      have : tileSetFromString line = [] := by simpa [possibleDiscard] using e
      rw [this] at hlen14
      simp [TileSet.len, Counter.total] at hlen14
    have ht : tryCount zero = .ok z := by
      unfold tryCount
      rw [if_neg, (pyInt_iff zero z).2 hz]
      intro ha
      obtain ⟨d, h1, h2⟩ := int_digit hz
      have h3 := List.all_eq_true.1 ha d h1
      rw [digit_not isSpace (by decide +kernel) h2] at h3
      cases h3
    have hm : ∀ ks : List Kind, ks ≠ [] → conditionMatrixF (winTrialsF (tileSetFromString line) []) z ks = .error .zeroDivision := by
      intro ks hks
      have : (winTrialsF (tileSetFromString line) []).total = 0 := rfl
      simp [conditionMatrixF, hks, this]
    rw [ht]
    simp only [bind, Except.bind, Int.toNat_of_nonpos hz0, List.range_zero, List.map_nil, drawSamples]
    rw [hm _ (by simpa using hne)]

/-- the hand `123m456p789s11222z`, three draws and the default number of experiments, whatever the random numbers; a text of three
    tiles is refused first -/
def exRates (m : List (List Rat)) : List (Rat × Rat) := List.replicate m.length (1 / 11, 1 / 11)

set_option maxRecDepth 100000 in
example : (written "123m456p789s11222z".toList).length = 14 ∧ AsksFor " ".toList 1000 ∧ AsksFor "20".toList 20 ∧
    (∀ m, (exRates m).length = m.length) ∧
    (∀ l ∈ ["123m".toList], (written l).length ≠ 14) ∧
    (∀ k, ¬ IntText "ten".toList k) ∧ IntText " 3".toList 3 ∧ IntText "-0".toList 0 ∧ IntText "-12".toList (-12) := by
  refine ⟨by decide +kernel, Or.inr ⟨by decide, rfl⟩, Or.inl ((pyInt_iff _ _).1 (by decide +kernel)),
    fun _ => List.length_replicate, by decide +kernel, (int_refused _).1 (by decide +kernel), (pyInt_iff _ _).1 (by decide +kernel),
    (pyInt_iff _ _).1 (by decide +kernel), (pyInt_iff _ _).1 (by decide +kernel)⟩

/-- in an experiment that draws one more `1m`, some discard wins -/
example : Completes (tileSetFromString "123m456p789s11222z".toList) (.m, 1) [⟨.m, 1, false⟩] := by
  exact (discard_completes (typed_ok _) (e := (⟨.m, 1, false⟩, 1)) (by decide +kernel) (by decide) (by decide)).1 (by decide +kernel)

end Verif.Props
