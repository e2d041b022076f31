import Verif.Spec.WholeRow
import Verif.Props.FairGame
import Verif.Props.Report

/-! From the lists the checker works with to the sets of the specification of rows. -/
namespace Verif.Proofs
open Verif.Py Verif.Model Verif.Spec Verif.Props

theorem ncard_filter {α : Type} (l : List α) (h : l.Nodup) (q : α → Prop) [DecidablePred q] (s : Set α)
    (hs : ∀ x, x ∈ s ↔ x ∈ l ∧ q x) : s.ncard = (l.filter (fun x => decide (q x))).length := by
  classical
  have e : s = ((l.filter (fun x => decide (q x))).toFinset : Set α) := by
    ext x
    simp [hs]
  rw [e, Set.ncard_coe_finset, List.toFinset_card_of_nodup (h.filter _)]

/-- the kinds of a hand listed -/
theorem handKinds_eq {p : Fin 4} {game : List Move} {hand : List Int} (h : hand.Nodup) (hm : ∀ x, x ∈ hand ↔ Held p x game) :
    heldKinds hand = handKinds p game := by
  funext k
  unfold heldKinds handKinds
  rw [ncard_filter hand h (fun n => CopyOf n k) _ (fun x => by rw [Set.mem_setOf_eq, hm])]

theorem noRed_iff {p : Fin 4} {game : List Move} {hand : List Int} (hm : ∀ x, x ∈ hand ↔ Held p x game) :
    NoRedFives hand ↔ NoRedHeld p game := by
  unfold NoRedFives NoRedHeld
  simp only [hm]

/-- the numbers in a set of invisible tiles -/
def numbersOf (inv : List InvElem) : List Int := inv.filterMap (fun x => match x with | .num n => some n | .tup _ _ _ => none)

theorem mem_numbersOf (inv : List InvElem) (n : Int) : n ∈ numbersOf inv ↔ InvElem.num n ∈ inv := by
  unfold numbersOf
  rw [List.mem_filterMap]
  constructor
  · rintro ⟨x, hx, h⟩
    cases x with
    | num m => simp only [Option.some.injEq] at h; rw [← h]; exact hx
    | tup => cases h
  · exact fun h => ⟨_, h, rfl⟩

theorem numbersOf_nodup {inv : List InvElem} (h : inv.Nodup) : (numbersOf inv).Nodup := by
  unfold numbersOf
  refine h.filterMap ?_
  intro a b c hc hc'
  cases a <;> cases b <;> simp_all

theorem unseenOf_numbers (inv : List InvElem) (ks : List Kind) :
    unseenOf inv ks = ((numbersOf inv).filter (fun n => decide (∃ k ∈ ks, CopyOf n k))).length := by
  unfold unseenOf numbersOf
  induction inv with
  | nil => rfl
  | cons x inv ih =>
    cases x with
    | tup => simpa using ih
    | num n =>
      rw [List.filter_cons]
      simp only [List.filterMap_cons]
      rw [List.filter_cons]
      by_cases h : ∃ k ∈ ks, CopyOf n k
      · simp only [h, decide_true, if_true, List.length_cons]; rw [ih]
      · simp only [h, decide_false, Bool.false_eq_true, if_false]; exact ih

/-- the count of a report, in terms of the game -/
theorem unseenCopies_eq {p : Fin 4} {four : Bool} {game : List Move} {hand : List Int} {inv : List InvElem} (hi : inv.Nodup)
    (hu : ∀ n, InvElem.num n ∈ inv ∧ n ∉ hand ↔ Unseen p four game n) (ks : List Kind) (useful : Kind → Prop) (hk : ∀ u, u ∈ ks ↔ useful u) :
    unseenOf (inv.filter (fun i => decide (i ∉ hand.map InvElem.num))) ks = unseenCopies p four game useful := by
  rw [unseenOf_numbers]
  unfold unseenCopies
  rw [ncard_filter _ (numbersOf_nodup (hi.filter _)) (fun n => ∃ k ∈ ks, CopyOf n k)]
  intro n
  rw [Set.mem_setOf_eq, mem_numbersOf, List.mem_filter, ← hu]
  simp only [decide_eq_true_eq, List.mem_map, InvElem.num.injEq, exists_eq_right, ← hk]

/-- the number of unseen tiles, in terms of the game -/
theorem unseenCount_eq {p : Fin 4} {four : Bool} {game : List Move} {hand : List Int} {inv : List InvElem} (hi : inv.Nodup)
    (hu : ∀ n, InvElem.num n ∈ inv ∧ n ∉ hand ↔ Unseen p four game n)
    (ht : ∀ a b c, InvElem.tup a b c ∈ inv ↔ four = false ∧ a = 0 ∧ (b = 0 ∨ b = 8) ∧ 0 ≤ c ∧ c < 4) :
    (inv.filter (fun i => decide (i ∉ hand.map InvElem.num))).length = unseenCount p four game := by
  have split : ∀ l : List InvElem, l.length = (numbersOf l).length +
      (l.filter (fun x => match x with | .num _ => false | .tup _ _ _ => true)).length := by
    intro l
    unfold numbersOf
    induction l with
    | nil => rfl
    | cons x l ih =>
      cases x <;> simp <;> omega
  rw [split]
  unfold unseenCount
  congr 1
  · have hnd : (numbersOf (inv.filter (fun i => decide (i ∉ hand.map InvElem.num)))).Nodup := numbersOf_nodup (hi.filter _)
    rw [ncard_filter _ hnd (fun _ => True) {n : Int | Unseen p four game n}]
    · simp
    · intro n
      rw [Set.mem_setOf_eq, mem_numbersOf, List.mem_filter, ← hu]
      simp
  · have hp : ((inv.filter (fun i => decide (i ∉ hand.map InvElem.num))).filter
        (fun x => match x with | .num _ => false | .tup _ _ _ => true)).Perm
        (if four then [] else [0, 8].flatMap (fun (num : Int) => (List.range 4).map (fun (i : Nat) => InvElem.tup 0 num i))) := by
      rw [List.perm_ext_iff_of_nodup ((hi.filter _).filter _) (by cases four <;> decide +kernel)]
      intro x
      rw [List.mem_filter, List.mem_filter]
      cases x with
      | num n => cases four <;> simp
      | tup a b c =>
        rw [ht]
        cases four
        · simp only [List.mem_map, reduceCtorEq, and_false, exists_false, not_false_eq_true, decide_true, and_true, true_and,
            Bool.false_eq_true, if_false, List.mem_flatMap, List.mem_cons, List.not_mem_nil, or_false, List.mem_range, InvElem.tup.injEq]
          constructor
          · rintro ⟨rfl, hb, h1, h2⟩
            exact ⟨b, hb, c.toNat, by omega, rfl, rfl, by omega⟩
          · rintro ⟨b', hb, i, h1, h2, h3, h4⟩
            subst h2 h3 h4
            exact ⟨rfl, hb, by omega, by omega⟩
        · simp
    rw [hp.length_eq]
    cases four <;> rfl

theorem number_table : ∀ i : Fin 136, (tileFromTenhou (i.val : Int)).map Tile.str = .ok (numberName (i.val : Int)) := by
  decide +kernel

theorem number_name {n : Int} (h : IsTileNumber n) : (tileFromTenhou n).map Tile.str = .ok (numberName n) := by
  unfold IsTileNumber at h
  have := number_table ⟨n.toNat, by omega⟩
  simp only at this
  rwa [show ((n.toNat : Nat) : Int) = n by omega] at this

theorem tileNames_numbers {l : List Int} (h : ∀ n ∈ l, IsTileNumber n) : tileNames l = .ok (l.map numberName) := by
  unfold tileNames
  induction l with
  | nil => rfl
  | cons a l ih =>
    rw [List.mapM_cons, number_name (h a (by simp)), ih (fun n hn => h n (by simp [hn]))]
    rfl

theorem kind_name {t : Tile} (h : t.aka = false) : t.str = kindName t.view := by
  cases t with
  | mk c n a =>
    simp only at h
    subst h
    rfl

/-! ### Red fives -/

theorem red_number {n : Int} (h : IsTileNumber n) (ha : (tileOf n).aka = true) : IsRed n (tileOf n).view ∧ (tileOf n).str = numberName n := by
  have hs : (tileOf n).str = numberName n := by
    have := number_name h
    rw [(tileOf_spec h).1] at this
    simpa [Except.map] using this
  exact ⟨red_kind h ha, hs⟩

theorem redHeld_of {p : Fin 4} {game : List Move} {hand : List Int} (hn : ∀ n ∈ hand, 0 ≤ n ∧ n < 136) (hm : ∀ x, x ∈ hand ↔ Held p x game)
    {t : Tile} (h : FromHand hand t) (ha : t.aka = true) : RedHeld p game t.view := by
  obtain ⟨n, h1, rfl⟩ := h ha
  exact ⟨n, (hm n).1 h1, (red_number (hn n h1) ha).1⟩

/-- a useful tile is plain if the red five of its kind is not held -/
theorem plain_useful {p : Fin 4} {game : List Move} {hand : List Int} (hn : ∀ n ∈ hand, 0 ≤ n ∧ n < 136) (hm : ∀ x, x ∈ hand ↔ Held p x game)
    {l : List Tile} (h : ∀ t ∈ l, FromHand hand t) (hu : ∀ u ∈ l.map Tile.view, ¬ RedHeld p game u) : ∀ t ∈ l, t.aka = false := by
  intro t ht
  cases ha : t.aka with
  | false => rfl
  | true => exact absurd (redHeld_of hn hm (h t ht) ha) (hu _ (List.mem_map_of_mem ht))

theorem names_of {p : Fin 4} {game : List Move} {hand : List Int} (hn : ∀ n ∈ hand, 0 ≤ n ∧ n < 136) (hm : ∀ x, x ∈ hand ↔ Held p x game)
    {t : Tile} (h : FromHand hand t) : Names p game t.view t.str := by
  cases ha : t.aka with
  | false => exact .inl (kind_name ha)
  | true =>
    obtain ⟨n, h1, rfl⟩ := h ha
    obtain ⟨r1, r2⟩ := red_number (hn n h1) ha
    exact .inr ⟨n, (hm n).1 h1, r1, r2⟩

theorem noRedHeld_iff {p : Fin 4} {game : List Move} : NoRedHeld p game ↔ ∀ k, ¬ RedHeld p game k := by
  unfold NoRedHeld RedHeld IsRed
  constructor
  · rintro h k ⟨n, h1, h2⟩
    have := h n h1
    rcases h2 with ⟨h2, _⟩ | ⟨h2, _⟩ | ⟨h2, _⟩ <;> omega
  · intro h n hn
    refine ⟨?_, ?_, ?_⟩ <;> rintro rfl
    · exact h (.m, 5) ⟨_, hn, .inl ⟨rfl, rfl⟩⟩
    · exact h (.p, 5) ⟨_, hn, .inr (.inl ⟨rfl, rfl⟩)⟩
    · exact h (.s, 5) ⟨_, hn, .inr (.inr ⟨rfl, rfl⟩)⟩

theorem noRedUseful {p : Fin 4} {game : List Move} (h : NoRedHeld p game) : NoRedUseful p game :=
  fun _ _ _ _ u _ => noRedHeld_iff.1 h u

/-! ### The invisible tiles -/

theorem initial_nodup (four : Bool) : (initialInvisible four).Nodup ∧ (initialInvisible four).length ≤ 136 := by
  cases four <;> decide +kernel

theorem scan_inv_nodup {four : Bool} {l : List InvElem} {e : Event} {s : GState} (h : (GState.invisible four l).scan e = .ok s)
    (hn : l.Nodup ∧ l.length ≤ 136) : ∃ l', s = .invisible four l' ∧ l'.Nodup ∧ l'.length ≤ 136 := by
  unfold GState.scan at h
  simp only [GState.scan?, bind_ok, pure_ok] at h
  obtain ⟨o, ⟨o', h1, h2⟩, h3⟩ := h
  subst h2
  cases o' with
  | none => exact ⟨l, h3.symm, hn⟩
  | some l' =>
    refine ⟨l', h3.symm, ?_⟩
    have sub : ∀ (a b : List InvElem), (a.Nodup ∧ a.length ≤ 136) → (setSub a b).Nodup ∧ (setSub a b).length ≤ 136 := by
      intro a b ha
      exact ⟨ha.1.filter _, le_trans (List.length_filter_le _ _) ha.2⟩
    unfold invisibleScan at h1
    simp only at h1
    split at h1
    · simp only [bind_ok, pure_ok, Option.some.injEq] at h1
      obtain ⟨d, _, h1⟩ := h1
      rw [← h1]; exact sub _ _ (initial_nodup four)
    · split at h1
      · simp only [pure_ok, Option.some.injEq] at h1
        rw [← h1]; exact sub _ _ hn
      · split at h1
        · simp only [bind_ok, pure_ok, Option.some.injEq] at h1
          obtain ⟨d, _, h1⟩ := h1
          rw [← h1]; exact sub _ _ hn
        · split at h1
          · simp only [bind_ok, pure_ok, Option.some.injEq] at h1
            obtain ⟨d, _, h1⟩ := h1
            rw [← h1]; exact sub _ _ hn
          · cases h1

theorem scanEvery_inv_nodup {four : Bool} (es : List Event) : ∀ {l : List InvElem} {s : GState},
    scanEvery (.invisible four l) es = .ok s → (l.Nodup ∧ l.length ≤ 136) → ∃ l', s = .invisible four l' ∧ l'.Nodup ∧ l'.length ≤ 136 := by
  induction es with
  | nil =>
    intro l s h hn
    cases h
    exact ⟨l, rfl, hn⟩
  | cons e es ih =>
    intro l s h hn
    rw [scanEvery_cons] at h
    cases h1 : (GState.invisible four l).scan e with
    | error x => rw [h1] at h; cases h
    | ok s1 =>
      rw [h1] at h
      obtain ⟨l1, rfl, h2⟩ := scan_inv_nodup h1 hn
      exact ih h h2

/-- `C58_inputs` and `C76_size` in terms of the specification -/
theorem report_inputs (iter : List Int → List Int) {p : Fin 4} (four : Bool) {seed : List Int} {hands : Fin 4 → List Int}
    {more : List (Str × Str)} {ms : List Move} (h : FairGame p seed hands more ms) {pre : List Move} {t : Nat} {post : List Move}
    (e : ms = pre ++ .discard p t :: post) :
    ∃ (hand : List Int) (inv : List InvElem),
      reportAt iter p four (Move.deal seed hands more :: pre, t) =
        (inGenerator (discardReasoning iter p (Move.discard p t).event hand inv (finalMelds (meldsOf p pre)))).map
          (fun r => { r with somebodyRichii := pre.any (fun m => decide (m.event.tag = "REACH".toList)) }) ∧
      NumberHand hand ∧ (∀ x, x ∈ hand ↔ Held p x (Move.deal seed hands more :: pre)) ∧ (t : Int) ∈ hand ∧
      meldCount (finalMelds (meldsOf p pre)) ≤ 4 ∧
      (∀ m ∈ finalMelds (meldsOf p pre), ∀ x ∈ m.selfTiles ++ m.borrowedTiles, IsTileNumber x) ∧
      inv.Nodup ∧ inv.length ≤ 136 ∧ (∀ n, InvElem.num n ∈ inv → 0 ≤ n) ∧
      (∀ n, InvElem.num n ∈ inv ∧ n ∉ hand ↔ Unseen p four (Move.deal seed hands more :: pre) n) ∧
      ∀ a b c, InvElem.tup a b c ∈ inv ↔ four = false ∧ a = 0 ∧ (b = 0 ∨ b = 8) ∧ 0 ≤ c ∧ c < 4 := by
  have hf := fair_prefix h _ e
  obtain ⟨hand, a1, a2, a3⟩ := C32_after_deal p [] List.nodup_nil seed hands more pre (fair_legalFor hf)
  obtain ⟨b, b1, b2, b3⟩ := C33_invisible four (initialInvisible four) seed hands more pre hf.legal hf.oneDeal
  have c1 := C34_melds p [] seed hands more pre hf.legal hf.oneDeal
  obtain ⟨hand', inv', _, d2, d3, d4, d5, _, d7⟩ := C76_size iter p four seed hands more ms h pre t post e
  have hnum : NumberHand hand := ⟨a2, fun n hn => d2.2 n ((d3 n).2 ((a3 n).1 hn))⟩
  have hnd : b.Nodup ∧ b.length ≤ 136 := by
    rw [passedEvents_eq] at b1
    obtain ⟨l', e1, e2⟩ := scanEvery_inv_nodup _ b1 (initial_nodup four)
    injection e1 with _ e1
    subst e1
    exact e2
  refine ⟨hand, b, ?_, hnum, a3, (a3 _).2 ((d3 _).1 d4), d5, d7, hnd.1, hnd.2, ?_, ?_, b3⟩
  · rw [reportAt_eq (pass_states a1 b1 c1)]
    simp only [handValue, invisibleValue, meldsValue, bind]
    have hr : (Move.deal seed hands more :: pre).any (fun m => decide (m.event.tag = "REACH".toList)) =
        pre.any (fun m => decide (m.event.tag = "REACH".toList)) := by
      rw [List.any_cons]
      have : decide ((Move.deal seed hands more).event.tag = "REACH".toList) = false := by
        simp [Move.event]
      rw [this, Bool.false_or]
    rw [hr]
    generalize inGenerator _ = x
    cases x <;> rfl
  · intro n hn
    have := ((b2 n).1 hn).1.1
    split at this <;> omega
  · intro n
    rw [b2, a3]
    unfold Unseen
    constructor
    · rintro ⟨⟨h1, h2, h3⟩, h4⟩
      refine ⟨h1, h4, ?_, ?_⟩
      · intro m hm
        rcases List.mem_cons.1 hm with rfl | hm
        · exact id
        · exact h3 m hm
      · intro s' h' m' hm
        rcases List.mem_cons.1 hm with hm | hm
        · injection hm with hm; rw [hm]; exact h2
        · have := hf.oneDeal _ hm
          cases this
    · rintro ⟨h1, h2, h3, h4⟩
      exact ⟨⟨h1, h4 seed hands more (by simp), fun m hm => h3 m (by simp [hm])⟩, h2⟩

/-! ### The number of a row -/

theorem points_index (p : Fin 4) (t : Nat) (post : List Move) (pre : List Move) : ∀ before : List Move,
    (pointsFrom p before (pre ++ .discard p t :: post))[(discardsOf p pre).length]? = some (before ++ pre, t) := by
  induction pre with
  | nil =>
    intro before
    simp [pointsFrom, ownDiscard, discardsOf]
  | cons m pre ih =>
    intro before
    have ih' := ih (before ++ [m])
    rw [List.append_assoc] at ih'
    rw [List.cons_append, pointsFrom]
    cases m with
    | discard q n =>
      by_cases hq : q = p
      · have e1 : ownDiscard p (.discard q n) = some n := by simp [ownDiscard, hq]
        have e2 : discardsOf p (.discard q n :: pre) = (n : Int) :: discardsOf p pre := by simp [discardsOf, hq]
        rw [e1, e2]
        simp only [List.length_cons, List.getElem?_cons_succ]
        exact ih'
      · have e1 : ownDiscard p (.discard q n) = none := by simp [ownDiscard, hq]
        have e2 : discardsOf p (.discard q n :: pre) = discardsOf p pre := by simp [discardsOf, hq]
        rw [e1, e2]
        exact ih'
    | _ => exact ih'

theorem discardPoints_index {p : Fin 4} {seed : List Int} {hands : Fin 4 → List Int} {more : List (Str × Str)} {ms pre post : List Move}
    {t : Nat} (e : ms = pre ++ .discard p t :: post) :
    (discardPoints p (Move.deal seed hands more :: ms))[(discardsOf p pre).length]? = some (Move.deal seed hands more :: pre, t) := by
  rw [discardPoints_eq, e]
  exact points_index p t post (Move.deal seed hands more :: pre) []

end Verif.Proofs
