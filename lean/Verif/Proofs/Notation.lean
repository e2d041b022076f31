import Verif.Model.Notation
import Verif.Spec.Notation
import Verif.Proofs.TileSet

namespace Verif.Proofs
open Verif.Py Verif.Model Verif.Spec

theorem char_eq_iff (a b : Char) : a = b ↔ a.toNat = b.toNat :=
  ⟨fun h => by rw [h], fun h => Char.toNat_inj.1 h⟩

theorem char_le_iff (a b : Char) : a ≤ b ↔ a.toNat ≤ b.toNat := Iff.rfl

theorem isDigit_eq_isDec (c : Char) : isDigit c = isDec c := by
  unfold isDigit isDec
  rw [Bool.eq_iff_iff]
  simp only [decide_eq_true_eq, List.mem_cons, List.not_mem_nil, or_false, char_le_iff, char_eq_iff]
  have e : ∀ n, n = '0'.toNat → n = 48 := fun n h => h
  show 48 ≤ c.toNat ∧ c.toNat ≤ 57 ↔ c.toNat = 48 ∨ c.toNat = 49 ∨ c.toNat = 50 ∨ c.toNat = 51 ∨
    c.toNat = 52 ∨ c.toNat = 53 ∨ c.toNat = 54 ∨ c.toNat = 55 ∨ c.toNat = 56 ∨ c.toNat = 57
  omega

def isHon (c : Char) : Bool := decide ('1' ≤ c ∧ c ≤ '7')

theorem isHon_iff (c : Char) : isHon c = true ↔ isDec c = true ∧ c ∉ ['0', '8', '9'] := by
  rw [← isDigit_eq_isDec]
  unfold isHon isDigit
  simp only [decide_eq_true_eq, List.mem_cons, List.not_mem_nil, or_false, char_le_iff, char_eq_iff]
  show 49 ≤ c.toNat ∧ c.toNat ≤ 55 ↔ (48 ≤ c.toNat ∧ c.toNat ≤ 57) ∧
    ¬ (c.toNat = 48 ∨ c.toNat = 56 ∨ c.toNat = 57)
  omega

theorem mem_decs {c : Char} (h : isDec c = true) :
    c ∈ ['0', '1', '2', '3', '4', '5', '6', '7', '8', '9'] := by
  unfold isDec at h
  exact of_decide_eq_true h

/-- the digit tile of the specification is the tile the code builds -/
theorem digitTile_eq (s : Suit) {c : Char} (h : isDec c = true) : digitTile s c = some (tileOfDigit s c) := by
  have h := mem_decs h
  simp only [List.mem_cons, List.not_mem_nil, or_false] at h
  rcases h with rfl | rfl | rfl | rfl | rfl | rfl | rfl | rfl | rfl | rfl <;> cases s <;> decide

theorem digitTile_none (s : Suit) {c : Char} (h : isDec c = false) : digitTile s c = none := by
  unfold digitTile
  split <;> first | rfl | (exfalso; revert h; decide)

/-! ### the specification on a run of digits -/

theorem dropWhile_digits (p : Char → Bool) (ds r : List Char) (x : Char) (hd : ∀ d ∈ ds, p d = true)
    (hx : p x = false) : (ds ++ x :: r).dropWhile p = x :: r := by
  induction ds with
  | nil => simp [hx]
  | cons d ds ih =>
    simp only [List.cons_append]
    rw [List.dropWhile_cons_of_pos (hd d (by simp)), ih (fun y hy => hd y (by simp [hy]))]

theorem takeWhile_digits (p : Char → Bool) (ds r : List Char) (x : Char) (hd : ∀ d ∈ ds, p d = true)
    (hx : p x = false) : (ds ++ x :: r).takeWhile p = ds := by
  induction ds with
  | nil => simp [hx]
  | cons d ds ih =>
    simp only [List.cons_append]
    rw [List.takeWhile_cons_of_pos (hd d (by simp)), ih (fun y hy => hd y (by simp [hy]))]

theorem written_nondigit {x : Char} (hx : isDec x = false) (r : List Char) : written (x :: r) = written r := by
  have : tileAt (x :: r) = none := by
    simp only [tileAt]
    split <;> simp [digitTile_none _ hx]
  simp [written, this]

theorem letter_not_dec (s : Suit) : isDec s.letter = false := by cases s <;> decide

theorem written_group (s : Suit) (ds r : List Char) (hd : ∀ d ∈ ds, isDec d = true)
    (hz : s = .z → ∀ d ∈ ds, isHon d = true) :
    written (ds ++ s.letter :: r) = ds.map (tileOfDigit s) ++ written r := by
  induction ds with
  | nil => simpa using written_nondigit (letter_not_dec s) r
  | cons d ds ih =>
    have hdd := hd d (by simp)
    have h1 : tileAt (d :: (ds ++ s.letter :: r)) = some (tileOfDigit s d) := by
      have e1 := dropWhile_digits isDec (d :: ds) r s.letter hd (letter_not_dec s)
      have e2 := takeWhile_digits isDec (d :: ds) r s.letter hd (letter_not_dec s)
      simp only [List.cons_append] at e1 e2
      simp only [tileAt, e1, e2]
      cases s with
      | m => exact digitTile_eq _ hdd
      | p => exact digitTile_eq _ hdd
      | s => exact digitTile_eq _ hdd
      | z =>
        simp only [Suit.letter]
        rw [if_pos]
        · exact digitTile_eq _ hdd
        · rw [List.all_eq_true]
          intro y hy
          have := (isHon_iff y).1 (hz rfl y hy)
          exact decide_eq_true this.2
    simp only [List.cons_append, written, h1, Option.toList_some, List.map_cons]
    rw [ih (fun y hy => hd y (by simp [hy])) (fun h y hy => hz h y (by simp [hy]))]
    rfl

/-! ### the regular expression -/

theorem starRun_cls (p q : Char → Bool) (hpq : ∀ c, p c = true → q c = false) (s : List Char) :
    (starRun p s).flatMap (Re.cls q).run = (Re.cls q).run (s.dropWhile p) := by
  induction s with
  | nil => simp [starRun, Re.run]
  | cons c s ih =>
    unfold starRun
    by_cases hc : p c = true
    · rw [if_pos hc, List.flatMap_append, ih, List.dropWhile_cons_of_pos hc]
      simp [Re.run, hpq c hc]
    · rw [if_neg hc, List.dropWhile_cons_of_neg (by simpa using hc)]
      simp

theorem run_group (p q : Char → Bool) (hpq : ∀ c, p c = true → q c = false) (c : Char) (s : List Char) :
    (Re.seq (.plus p) (.cls q)).run (c :: s) = if p c then (Re.cls q).run (s.dropWhile p) else [] := by
  show ((Re.plus p).run (c :: s)).flatMap (Re.cls q).run = _
  simp only [Re.run]
  by_cases hc : p c = true
  · rw [if_pos hc, if_pos hc, starRun_cls p q hpq]
  · rw [if_neg hc, if_neg hc]; rfl

def isMps (c : Char) : Bool := decide (c = 'm' ∨ c = 'p' ∨ c = 's')
def isZ (c : Char) : Bool := decide (c = 'z')

theorem dec_not_mps (c : Char) (h : isDigit c = true) : isMps c = false := by
  rw [isDigit_eq_isDec] at h
  have h := mem_decs h
  simp only [List.mem_cons, List.not_mem_nil, or_false] at h
  rcases h with rfl | rfl | rfl | rfl | rfl | rfl | rfl | rfl | rfl | rfl <;> decide

theorem hon_not_z (c : Char) (h : isHon c = true) : isZ c = false := by
  have h := mem_decs ((isHon_iff c).1 h).1
  simp only [List.mem_cons, List.not_mem_nil, or_false] at h
  rcases h with rfl | rfl | rfl | rfl | rfl | rfl | rfl | rfl | rfl | rfl <;> decide

theorem regex_run (c : Char) (s : List Char) : tileGroupRegex.run (c :: s) =
    (if isDec c then (Re.cls isMps).run (s.dropWhile isDec) else []) ++
    (if isHon c then (Re.cls isZ).run (s.dropWhile isHon) else []) := by
  have e : isDigit = isDec := funext isDigit_eq_isDec
  show (Re.seq (.plus isDigit) (.cls isMps)).run (c :: s) ++ (Re.seq (.plus isHon) (.cls isZ)).run (c :: s) = _
  rw [run_group _ _ dec_not_mps, run_group _ _ hon_not_z, e]

theorem isMps_letter {x : Char} (h : isMps x = true) : ∃ s : Suit, s ≠ .z ∧ s.letter = x := by
  unfold isMps at h
  rcases of_decide_eq_true h with rfl | rfl | rfl
  · exact ⟨.m, by simp, rfl⟩
  · exact ⟨.p, by simp, rfl⟩
  · exact ⟨.s, by simp, rfl⟩

theorem split_while (p : Char → Bool) (s : List Char) {x : Char} {r : List Char}
    (h : s.dropWhile p = x :: r) : s = s.takeWhile p ++ x :: r ∧ ∀ d ∈ s.takeWhile p, p d = true := by
  refine ⟨?_, fun d hd => ?_⟩
  · rw [← h, List.takeWhile_append_dropWhile]
  · exact List.all_eq_true.1 (List.all_takeWhile (l := s) (p := p)) d hd

/-- either the text starts with a group, or its first character denotes nothing -/
theorem match_cases (c : Char) (s : List Char) :
    (∃ (su : Suit) (ds r : List Char), c :: s = ds ++ su.letter :: r ∧ ds ≠ [] ∧
      (∀ d ∈ ds, isDec d = true) ∧ (su = .z → ∀ d ∈ ds, isHon d = true) ∧
      tileGroupRegex.matchPrefix (c :: s) = some (ds ++ [su.letter], r)) ∨
    (tileGroupRegex.matchPrefix (c :: s) = none ∧ tileAt (c :: s) = none) := by
  have hmatch : ∀ (x : Char) (ds r : List Char), c :: s = ds ++ x :: r →
      (∃ l, tileGroupRegex.run (c :: s) = r :: l) →
      tileGroupRegex.matchPrefix (c :: s) = some (ds ++ [x], r) := by
    rintro x ds r he ⟨l, hl⟩
    unfold Re.matchPrefix
    rw [hl]
    simp only [Option.some.injEq, Prod.mk.injEq, and_true]
    rw [he]
    have : (ds ++ x :: r).length - r.length = (ds ++ [x]).length := by simp; omega
    rw [this]
    have e : ds ++ x :: r = (ds ++ [x]) ++ r := by simp
    rw [e, List.take_left]
  have hrun := regex_run c s
  by_cases hA : isDec c = true ∧ ∃ x r, s.dropWhile isDec = x :: r ∧ isMps x = true
  · obtain ⟨hc, x, r, hs, hx⟩ := hA
    obtain ⟨su, hsu, rfl⟩ := isMps_letter hx
    obtain ⟨e, hall⟩ := split_while isDec s hs
    left
    refine ⟨su, c :: s.takeWhile isDec, r, by rw [List.cons_append, ← e], by simp, ?_, fun h => absurd h hsu, ?_⟩
    · intro d hd
      rcases List.mem_cons.1 hd with rfl | hd
      · exact hc
      · exact hall d hd
    · apply hmatch
      · rw [List.cons_append, ← e]
      · rw [hrun, if_pos hc, hs]
        simp only [Re.run, hx, if_true]
        exact ⟨_, rfl⟩
  · have h1 : (if isDec c then (Re.cls isMps).run (s.dropWhile isDec) else []) = [] := by
      by_cases hc : isDec c = true
      · rw [if_pos hc]
        cases hs : s.dropWhile isDec with
        | nil => rfl
        | cons x r =>
          have : ¬ isMps x = true := fun hx => hA ⟨hc, x, r, hs, hx⟩
          simp [Re.run, this]
      · rw [if_neg hc]
    rw [h1, List.nil_append] at hrun
    by_cases hB : isHon c = true ∧ ∃ r, s.dropWhile isHon = 'z' :: r
    · obtain ⟨hc, r, hs⟩ := hB
      obtain ⟨e, hall⟩ := split_while isHon s hs
      left
      have hh : ∀ d ∈ c :: s.takeWhile isHon, isHon d = true := by
        intro d hd
        rcases List.mem_cons.1 hd with rfl | hd
        · exact hc
        · exact hall d hd
      refine ⟨.z, c :: s.takeWhile isHon, r, by rw [List.cons_append]; exact congrArg _ e, by simp,
        fun d hd => ((isHon_iff d).1 (hh d hd)).1, fun _ => hh, ?_⟩
      apply hmatch
      · rw [List.cons_append]; exact congrArg _ e
      · rw [hrun, if_pos hc, hs]
        exact ⟨[], rfl⟩
    · right
      have h2 : (if isHon c then (Re.cls isZ).run (s.dropWhile isHon) else []) = [] := by
        by_cases hc : isHon c = true
        · rw [if_pos hc]
          cases hs : s.dropWhile isHon with
          | nil => rfl
          | cons x r =>
            have : ¬ isZ x = true := fun hx => hB ⟨hc, r, by rw [hs]; unfold isZ at hx; rw [of_decide_eq_true hx]⟩
            simp [Re.run, this]
        · rw [if_neg hc]
      rw [h2] at hrun
      refine ⟨by unfold Re.matchPrefix; rw [hrun], ?_⟩
      by_cases hc : isDec c = true
      · have hdw : (c :: s).dropWhile isDec = s.dropWhile isDec := List.dropWhile_cons_of_pos hc
        have htw : (c :: s).takeWhile isDec = c :: s.takeWhile isDec := List.takeWhile_cons_of_pos hc
        simp only [tileAt, hdw, htw]
        cases hs : s.dropWhile isDec with
        | nil => rfl
        | cons x r =>
          have hx : isMps x = false := by
            cases h : isMps x with
            | false => rfl
            | true => exact absurd ⟨hc, x, r, hs, h⟩ hA
          split
          · rename_i h; cases h; exact absurd hx (by decide)
          · rename_i h; cases h; exact absurd hx (by decide)
          · rename_i h; cases h; exact absurd hx (by decide)
          · rename_i h; cases h
            rw [if_neg]
            intro hall
            rw [List.all_eq_true] at hall
            obtain ⟨e, hd⟩ := split_while isDec s hs
            have hhon : ∀ d ∈ c :: s.takeWhile isDec, isHon d = true := by
              intro d hdm
              refine (isHon_iff d).2 ⟨?_, of_decide_eq_true (hall d hdm)⟩
              rcases List.mem_cons.1 hdm with rfl | h
              · exact hc
              · exact hd d h
            apply hB
            refine ⟨hhon c (by simp), r, ?_⟩
            rw [e]
            exact dropWhile_digits isHon _ _ _ (fun d hdm => hhon d (by simp [hdm])) (by decide)
          · rfl
      · have hc : isDec c = false := by simpa using hc
        simp only [tileAt]
        split <;> simp [digitTile_none _ hc]

theorem tilesOfGroup_eq (s : Suit) (ds : List Char) :
    tilesOfGroup (ds ++ [s.letter]) = ds.map (tileOfDigit s) := by
  unfold tilesOfGroup
  have : suitOfLetter s.letter = some s := by cases s <;> decide
  simp [this]

/-- `tiles_from_string` reads exactly the written tiles. -/
theorem finditer_written (fuel : Nat) (s : List Char) (h : s.length ≤ fuel) :
    (tileGroupRegex.finditerAux fuel s).flatMap tilesOfGroup = written s := by
  induction fuel generalizing s with
  | zero =>
    have : s = [] := List.length_eq_zero_iff.1 (by omega)
    subst this; rfl
  | succ fuel ih =>
    cases s with
    | nil => rfl
    | cons c s =>
      unfold Re.finditerAux
      rcases match_cases c s with ⟨su, ds, r, he, hne, hd, hz, hm⟩ | ⟨hm, ht⟩
      · rw [hm]
        simp only [List.flatMap_cons]
        have hl : r.length ≤ fuel := by
          have := congrArg List.length he
          simp at this h
          omega
        rw [ih r hl, tilesOfGroup_eq, he, written_group su ds r hd hz]
      · rw [hm]
        simp only
        rw [ih s (by simp at h; omega)]
        simp [written, ht]

theorem tilesFromString_eq (s : List Char) : tilesFromString s = written s :=
  finditer_written s.length s (Nat.le_refl _)

/-! ### printing -/

theorem digitChar_real {t : Tile} (ht : RealTile t) :
    isDec (digitChar t.number) = true ∧ (t.color = .z → isHon (digitChar t.number) = true) ∧
    tileOfDigit t.color (digitChar t.number) = t := by
  obtain ⟨c, n, a⟩ := t
  obtain ⟨h1, h2⟩ := ht
  simp only at h2
  cases a with
  | true =>
    obtain ⟨rfl, hc⟩ := h2 rfl
    cases c <;> first | (exact absurd rfl hc) | decide
  | false =>
    simp only [ValidKind, Tile.view, Bool.false_eq_true, if_false] at h1
    have : n = 1 ∨ n = 2 ∨ n = 3 ∨ n = 4 ∨ n = 5 ∨ n = 6 ∨ n = 7 ∨ n = 8 ∨ n = 9 := by omega
    rcases this with rfl | rfl | rfl | rfl | rfl | rfl | rfl | rfl | rfl <;> cases c <;>
      first | decide | (simp at h1)

theorem groupByColor_spec (c : TileSet) :
    (groupByColor c).flatMap (fun g => g.2) = c ∧ ∀ g ∈ groupByColor c, ∀ e ∈ g.2, e.1.color = g.1 := by
  induction c with
  | nil => simp [groupByColor]
  | cons e l ih =>
    obtain ⟨ih1, ih2⟩ := ih
    unfold groupByColor
    split
    · rename_i co g rest heq
      rw [heq] at ih1 ih2
      split
      · rename_i hc
        refine ⟨by simpa using ih1, ?_⟩
        intro g' hg' e' he'
        rcases List.mem_cons.1 hg' with rfl | hg'
        · rcases List.mem_cons.1 he' with rfl | he'
          · exact hc
          · exact ih2 (co, g) (by simp) e' he'
        · exact ih2 g' (by simp [hg']) e' he'
      · refine ⟨by simpa using ih1, ?_⟩
        intro g' hg' e' he'
        rcases List.mem_cons.1 hg' with rfl | hg'
        · simp at he'; subst he'; rfl
        · exact ih2 g' hg' e' he'
    · rename_i heq
      rw [heq] at ih1
      simp at ih1
      subst ih1
      refine ⟨by simp, ?_⟩
      intro g' hg' e' he'
      simp only [List.mem_singleton] at hg'
      subst hg'
      simp only [List.mem_singleton] at he'
      subst he'
      rfl

theorem written_groups (gs : List (Suit × List (Tile × Int)))
    (hr : ∀ g ∈ gs, ∀ e ∈ g.2, RealTile e.1 ∧ e.1.color = g.1) :
    written (gs.flatMap (fun g =>
      g.2.flatMap (fun e => List.replicate e.2.toNat (digitChar e.1.number)) ++ [g.1.letter])) =
    TileSet.tiles (gs.flatMap (fun g => g.2)) := by
  induction gs with
  | nil => rfl
  | cons g gs ih =>
    simp only [List.flatMap_cons, List.append_assoc, List.cons_append, List.nil_append]
    have hg := hr g (by simp)
    rw [written_group, ih (fun g' h' => hr g' (by simp [h']))]
    · unfold TileSet.tiles
      rw [List.flatMap_append, List.map_flatMap]
      congr 1
      clear ih hr
      generalize hl : g.2 = l at *
      induction l with
      | nil => rfl
      | cons e l ihl =>
        obtain ⟨h1, h2⟩ := hg e (by simp)
        simp only [List.flatMap_cons, List.map_replicate]
        rw [← h2, (digitChar_real h1).2.2, h2]
        have := fun h => ihl h
        congr 1
        clear ihl
        have hg' : ∀ e ∈ l, RealTile e.1 ∧ e.1.color = g.1 := fun e' h' => hg e' (by simp [h'])
        clear hg hl this
        induction l with
        | nil => rfl
        | cons e l ihl =>
          obtain ⟨h1, h2⟩ := hg' e (by simp)
          simp only [List.flatMap_cons, List.map_replicate]
          rw [← h2, (digitChar_real h1).2.2, h2, ihl (fun e' h' => hg' e' (by simp [h']))]
    · intro d hd
      obtain ⟨e, he, hd⟩ := List.mem_flatMap.1 hd
      rw [List.eq_of_mem_replicate hd]
      exact (digitChar_real (hg e he).1).1
    · intro hz d hd
      obtain ⟨e, he, hd⟩ := List.mem_flatMap.1 hd
      rw [List.eq_of_mem_replicate hd]
      exact (digitChar_real (hg e he).1).2.1 ((hg e he).2.trans hz)

theorem parse_genStr {c : TileSet} (hr : ∀ e ∈ c, RealTile e.1) :
    tilesFromString (genStr c) = TileSet.tiles c := by
  obtain ⟨h1, h2⟩ := groupByColor_spec c
  rw [tilesFromString_eq]
  unfold genStr
  rw [written_groups, h1]
  intro g hg e he
  refine ⟨hr e ?_, h2 g hg e he⟩
  rw [← h1]
  exact List.mem_flatMap.2 ⟨g, hg, he⟩

/-! ### counting the parsed tiles again -/

theorem foldl_replicate (acc : TileSet) (a : Tile) (n : Nat) (m : Int) (h : view a ∉ Counter.keys acc) :
    (List.replicate n a).foldl (fun c a => Counter.set c a (Counter.get c (view a) + 1)) (acc ++ [(a, m)])
      = acc ++ [(a, m + n)] := by
  induction n generalizing m with
  | zero => simp
  | succ n ih =>
    have hs : ∀ (acc : TileSet) (x : Int), view a ∉ Counter.keys acc →
        Counter.get (acc ++ [(a, m)]) (view a) = m ∧
        Counter.set (acc ++ [(a, m)]) a x = acc ++ [(a, x)] := by
      intro acc x h
      induction acc with
      | nil => simp [Counter.get, Counter.set]
      | cons e acc ih =>
        obtain ⟨b, y⟩ := e
        simp only [Counter.keys_cons, List.mem_cons, not_or] at h
        obtain ⟨i1, i2⟩ := ih h.2
        have hb : ¬ view b = view a := fun hh => h.1 hh.symm
        simp only [List.cons_append, Counter.get, Counter.set, hb, if_false]
        exact ⟨i1, by rw [i2]⟩
    obtain ⟨e1, e2⟩ := hs acc (m + 1) h
    rw [List.replicate_succ, List.foldl_cons, e1, e2, ih]
    congr 2
    simp only [Prod.mk.injEq, true_and]
    omega

theorem ofIter_tiles_aux (c acc : TileSet) (hw : Counter.WF (acc ++ c)) :
    (TileSet.tiles c).foldl (fun c a => Counter.set c a (Counter.get c (view a) + 1)) acc
      = acc ++ c.filter (fun e => decide (0 < e.2)) := by
  induction c generalizing acc with
  | nil => simp [TileSet.tiles]
  | cons e c ih =>
    obtain ⟨a, n⟩ := e
    have hnk : view a ∉ Counter.keys acc := by
      unfold Counter.WF Counter.keys at *
      rw [List.map_append, List.nodup_append] at hw
      intro h
      exact hw.2.2 _ h _ (by simp) rfl
    simp only [TileSet.tiles, List.flatMap_cons, List.foldl_append]
    by_cases hn : 0 < n
    · obtain ⟨k, hk⟩ : ∃ k : Nat, n = (k : Int) + 1 := ⟨(n - 1).toNat, by omega⟩
      have e0 : n.toNat = k + 1 := by omega
      have e1 : ∀ (acc : TileSet), view a ∉ Counter.keys acc → Counter.get acc (view a) = 0 ∧
          Counter.set acc a 1 = acc ++ [(a, 1)] := by
        intro acc h
        induction acc with
        | nil => exact ⟨rfl, rfl⟩
        | cons e acc ih =>
          obtain ⟨b, y⟩ := e
          simp only [Counter.keys_cons, List.mem_cons, not_or] at h
          obtain ⟨i1, i2⟩ := ih h.2
          have hb : ¬ view b = view a := fun hh => h.1 hh.symm
          simp only [List.cons_append, Counter.get, Counter.set, hb, if_false]
          exact ⟨i1, by rw [i2]⟩
      obtain ⟨g1, g2⟩ := e1 acc hnk
      rw [e0, List.replicate_succ, List.foldl_cons, g1, Int.zero_add, g2, foldl_replicate acc a k 1 hnk]
      have hkn : (1 : Int) + k = n := by omega
      rw [hkn]
      have := ih (acc ++ [(a, n)]) (by simpa using hw)
      unfold TileSet.tiles at this
      rw [this, List.filter_cons, if_pos (by simpa using hn)]
      simp
    · have e0 : n.toNat = 0 := by omega
      rw [e0, List.filter_cons, if_neg (by simpa using hn)]
      simp only [List.replicate_zero, List.foldl_nil]
      have hw' : Counter.WF (acc ++ c) := by
        unfold Counter.WF Counter.keys at *
        exact hw.sublist ((List.sublist_append_right [(a, n)] c).append_left acc |>.map _)
      exact ih acc hw'

theorem ofIter_tiles {c : TileSet} (hw : Counter.WF c) :
    Counter.ofIter (TileSet.tiles c) = Counter.keepPositive c :=
  ofIter_tiles_aux c [] hw

theorem reSort_of_sorted {c : TileSet} (h : (c.map (fun e => e.1.view)).Pairwise Kind.lt) : reSort c = c := by
  induction c with
  | nil => rfl
  | cons e c ih =>
    simp only [List.map_cons, List.pairwise_cons] at h
    show insertItem e (reSort c) = _
    rw [ih h.2]
    cases c with
    | nil => rfl
    | cons f c =>
      have := h.1 f.1.view (by simp)
      unfold insertItem
      rw [if_neg]
      intro h2
      unfold Kind.lt at *
      rcases this with h1 | ⟨h1, h3⟩ <;> rcases h2 with h4 | ⟨h4, h5⟩
      · omega
      · rw [h4] at h1; omega
      · rw [h1] at h4; omega
      · omega

theorem tileSet_roundtrip {c : TileSet} (hw : Counter.WF c) (hr : ∀ e ∈ c, RealTile e.1) :
    tileSetFromString (TileSet.str c) = Counter.keepPositive (reSort c) := by
  unfold tileSetFromString TileSet.str
  have hp := reSort_perm c
  rw [parse_genStr (fun e he => hr e (hp.mem_iff.1 he)), ofIter_tiles (WF_reSort hw)]
  apply reSort_of_sorted
  unfold Counter.keepPositive
  exact (reSort_sorted hw).sublist (List.filter_sublist.map _)

end Verif.Proofs
