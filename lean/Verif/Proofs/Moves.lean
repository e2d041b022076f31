import Verif.Spec.Moves
import Verif.Proofs.State

namespace Verif.Proofs
open Verif.Py Verif.Model Verif.Spec

theorem takeWhile_all (p : Char → Bool) (s : Str) (h : ∀ c ∈ s, p c = true) : s.takeWhile p = s ∧ s.dropWhile p = [] := by
  have := takeWhile_append_stop p s [] h (by simp)
  simpa using this

theorem parseNum_plain {s : Str} {n : Num} (h : parsePlain s = .ok n) : parseNum s = .ok n := by
  unfold parseNum
  rw [h]

theorem parseNum_pyStrInt (n : Int) : parseNum (pyStrInt n) = .ok (.int n) := by
  apply parseNum_plain
  unfold pyStrInt
  have key : ∀ k : Nat, (natDigits k).takeWhile isDigit = natDigits k ∧ (natDigits k).dropWhile isDigit = [] :=
    fun k => takeWhile_all _ _ (natDigits_all k)
  split
  · rename_i h
    unfold parsePlain
    simp only [signOf, if_true, (key n.natAbs).1, (key n.natAbs).2, if_neg (natDigits_ne_nil _), digitsVal_natDigits, if_true]
    congr 2; omega
  · rename_i h
    cases hd : natDigits n.natAbs with
    | nil => exact absurd hd (natDigits_ne_nil _)
    | cons c t =>
      have hc : isDigit c = true := natDigits_all n.natAbs c (by rw [hd]; simp)
      have k1 := (key n.natAbs).1
      have k2 := (key n.natAbs).2
      have k3 := digitsVal_natDigits n.natAbs
      rw [hd] at k1 k2 k3
      have hs : signOf (c :: t) = (false, c :: t) := by
        simp only [signOf]
        rw [if_neg (isDigit_ne hc (by decide)), if_neg (isDigit_ne hc (by decide))]
      unfold parsePlain
      simp only [hs, k1, k2, k3, reduceCtorEq, if_false, Bool.false_eq_true]
      congr 2; omega

theorem mapM_ok {α β : Type} (f : α → Except PyErr β) (g : α → β) (l : List α) (h : ∀ x ∈ l, f x = .ok (g x)) :
    l.mapM f = .ok (l.map g) := by
  induction l with
  | nil => rfl
  | cons a l ih =>
    rw [List.mapM_cons, h a (by simp), ih (fun x hx => h x (by simp [hx]))]
    rfl

theorem numberList_comma (l : List Int) (hne : l ≠ []) : numberList (commaList l) = .ok (l.map Num.int) := by
  unfold numberList commaList
  rw [splitOn_join]
  · rw [mapM_ok parseNum (fun s => (match parseNum s with | .ok v => v | .error _ => .int 0))]
    · congr 1
      simp only [List.map_map]
      apply List.map_congr_left
      intro x _
      simp [parseNum_pyStrInt]
    · intro x hx
      obtain ⟨n, _, rfl⟩ := List.mem_map.1 hx
      rw [parseNum_pyStrInt]
  · simpa using hne
  · intro p hp
    obtain ⟨n, _, rfl⟩ := List.mem_map.1 hp
    exact pyStrInt_not_mem n _ (by decide) (by decide)

theorem intList_comma (l : List Int) (hne : l ≠ []) : intList (commaList l) = .ok l := by
  unfold intList
  rw [numberList_comma l hne]
  simp only [bind, Except.bind]
  rw [mapM_ok Num.toInt (fun n => match n with | .int k => k | .dec _ _ => 0)]
  · congr 1
    rw [List.map_map]
    exact List.map_id _
  · intro x hx
    obtain ⟨n, _, rfl⟩ := List.mem_map.1 hx
    rfl

theorem prefixNumber_number (c d : Char) (t : Nat) :
    prefixNumber c (d :: natDigits t) = if d = c then some (t : Int) else none := by
  simp only [prefixNumber, (takeWhile_all _ _ (natDigits_all t)).1, if_neg (natDigits_ne_nil t), digitsVal_natDigits]

theorem wholeNumber_number (cs : List Char) (d : Char) (t : Nat) :
    wholeNumber cs (d :: natDigits t) = if d ∈ cs then some (d, (t : Int)) else none := by
  simp only [wholeNumber, (takeWhile_all _ _ (natDigits_all t)).1, (takeWhile_all _ _ (natDigits_all t)).2,
    digitsVal_natDigits]
  simp [natDigits_ne_nil]

theorem prefixNumber_quiet {e : Event} (h : Quiet e) (c : Char) (hc : c ∈ "TUVWDEFG".toList) :
    prefixNumber c e.tag = none := by
  have h4 := h.2.2.2
  cases ht : e.tag with
  | nil => rfl
  | cons d t =>
    unfold prefixNumber
    simp only
    split
    · rename_i hd
      subst hd
      cases t with
      | nil => rfl
      | cons x r =>
        have hx := h4 d x r ht hc
        have : isDigit x = false := by simpa [isDigit] using hx
        simp [this]
    · rfl

theorem wholeNumber_quiet {e : Event} (h : Quiet e) (cs : List Char) (hcs : ∀ c ∈ cs, c ∈ "TUVWDEFG".toList) :
    wholeNumber cs e.tag = none := by
  have h4 := h.2.2.2
  cases ht : e.tag with
  | nil => rfl
  | cons d t =>
    unfold wholeNumber
    simp only
    split
    · rename_i hd
      cases t with
      | nil => rfl
      | cons x r =>
        have hx := h4 d x r ht (hcs d hd)
        have : isDigit x = false := by simpa [isDigit] using hx
        simp [this]
    · rfl

theorem drawLetter_eq (p : Fin 4) : DRAW_INDICATOR.getD p.val ' ' = drawLetter p := by revert p; decide
theorem discardLetter_eq (p : Fin 4) : DISCARD_INDICATOR.getD p.val ' ' = discardLetter p := by revert p; decide
theorem drawLetter_inj : ∀ p q : Fin 4, drawLetter p = drawLetter q ↔ p = q := by decide
theorem discardLetter_inj : ∀ p q : Fin 4, discardLetter p = discardLetter q ↔ p = q := by decide
theorem letters_ne : ∀ p q : Fin 4, drawLetter p ≠ discardLetter q := by decide
theorem drawLetter_mem : ∀ p : Fin 4, drawLetter p ∈ "TUVWDEFG".toList := by decide
theorem discardLetter_mem : ∀ p : Fin 4, discardLetter p ∈ "TUVWDEFG".toList := by decide
theorem drawLetter_not : ∀ p : Fin 4, drawLetter p ∉ DISCARD_INDICATOR := by decide
theorem discardLetter_in : ∀ p : Fin 4, discardLetter p ∈ DISCARD_INDICATOR := by decide

/-- tags of draws and discards are not the fixed tags -/
theorem letter_tag_ne (c : Char) (hc : c ∈ "TUVWDEFG".toList) (t : Nat) :
    (c :: natDigits t) ≠ "INIT".toList ∧ (c :: natDigits t) ≠ "N".toList ∧ (c :: natDigits t) ≠ "DORA".toList := by
  refine ⟨?_, ?_, ?_⟩
  · intro h
    have := (List.cons.inj h).1
    subst this
    exact absurd hc (by decide)
  · intro h
    have := (List.cons.inj h).1
    subst this
    exact absurd hc (by decide)
  · intro h
    have h2 := (List.cons.inj h).2
    have := natDigits_all t 'O' (by rw [h2]; decide)
    exact absurd this (by decide)

/-- player draw of a move -/
theorem playerDraw_move (p : Fin 4) {m : Move} (hm : LegalMove m) :
    playerDraw p m.event = match m with | .draw q t => if q = p then some (t : Int) else none | _ => none := by
  unfold playerDraw
  rw [drawLetter_eq]
  cases m with
  | deal s h more =>
    have : ∀ p, prefixNumber (drawLetter p) "INIT".toList = none := by decide
    exact this p
  | draw q t => simp only [Move.event, prefixNumber_number, drawLetter_inj]
  | discard q t =>
    simp only [Move.event, prefixNumber_number, if_neg (Ne.symm (letters_ne p q))]
  | meld q c =>
    have : ∀ p, prefixNumber (drawLetter p) "N".toList = none := by decide
    exact this p
  | dora t =>
    have : ∀ p, prefixNumber (drawLetter p) "DORA".toList = none := by decide
    exact this p
  | other e => exact prefixNumber_quiet hm _ (drawLetter_mem p)

theorem playerDiscard_move (p : Fin 4) {m : Move} (hm : LegalMove m) :
    playerDiscard p m.event = match m with | .discard q t => if q = p then some (t : Int) else none | _ => none := by
  unfold playerDiscard
  rw [discardLetter_eq]
  cases m with
  | deal s h more =>
    have : ∀ p, prefixNumber (discardLetter p) "INIT".toList = none := by decide
    exact this p
  | draw q t => simp only [Move.event, prefixNumber_number, if_neg (letters_ne q p)]
  | discard q t =>
    simp only [Move.event, prefixNumber_number, discardLetter_inj]
  | meld q c =>
    have : ∀ p, prefixNumber (discardLetter p) "N".toList = none := by decide
    exact this p
  | dora t =>
    have : ∀ p, prefixNumber (discardLetter p) "DORA".toList = none := by decide
    exact this p
  | other e => exact prefixNumber_quiet hm _ (discardLetter_mem p)

theorem discardValue_move {m : Move} (hm : LegalMove m) :
    discardValue m.event = match m with | .discard _ t => some (t : Int) | _ => none := by
  unfold discardValue
  cases m with
  | deal s h more => rfl
  | draw q t => simp only [Move.event, wholeNumber_number, if_neg (drawLetter_not q)]; rfl
  | discard q t => simp only [Move.event, wholeNumber_number, if_pos (discardLetter_in q)]; rfl
  | meld q c => rfl
  | dora t =>
    have : wholeNumber DISCARD_INDICATOR "DORA".toList = none := by decide
    show (wholeNumber DISCARD_INDICATOR "DORA".toList).map _ = _
    rw [this]; rfl
  | other e =>
    show (wholeNumber _ e.tag).map _ = none
    rw [wholeNumber_quiet hm _ (by decide)]; rfl

theorem isGameInit_move {m : Move} (hm : LegalMove m) : isGameInit m.event = m.isDeal := by
  unfold isGameInit
  cases m with
  | deal s h more => rfl
  | draw q t => exact decide_eq_false (letter_tag_ne _ (drawLetter_mem q) t).1
  | discard q t => exact decide_eq_false (letter_tag_ne _ (discardLetter_mem q) t).1
  | meld q c => rfl
  | dora t => rfl
  | other e => exact decide_eq_false hm.1

theorem isOpenHand_move {m : Move} (hm : LegalMove m) :
    isOpenHand m.event = match m with | .meld _ _ => true | _ => false := by
  unfold isOpenHand
  cases m with
  | deal s h more => rfl
  | draw q t => exact decide_eq_false (letter_tag_ne _ (drawLetter_mem q) t).2.1
  | discard q t => exact decide_eq_false (letter_tag_ne _ (discardLetter_mem q) t).2.1
  | meld q c => rfl
  | dora t => rfl
  | other e => exact decide_eq_false hm.2.1

theorem isDora_move {m : Move} (hm : LegalMove m) :
    isDora m.event = match m with | .dora _ => true | _ => false := by
  unfold isDora
  cases m with
  | deal s h more => rfl
  | draw q t => exact decide_eq_false (letter_tag_ne _ (drawLetter_mem q) t).2.2
  | discard q t => exact decide_eq_false (letter_tag_ne _ (discardLetter_mem q) t).2.2
  | meld q c => rfl
  | dora t => rfl
  | other e => exact decide_eq_false hm.2.2.1

theorem playerOpenHand_move (p : Fin 4) {m : Move} (hm : LegalMove m) :
    playerOpenHand p m.event = .ok (match m with | .meld q _ => decide (q = p) | _ => false) := by
  have h := isOpenHand_move hm
  unfold isOpenHand at h
  unfold playerOpenHand triggeredBy
  cases m with
  | meld q c =>
    simp only [Move.event, if_true, Event.get, List.lookup, bind, Except.bind, pure, Except.pure, beq_self_eq_true,
      pyInt_natDigits]
    congr 1
    rw [decide_eq_decide]
    constructor
    · intro h; apply Fin.ext; omega
    · rintro rfl; rfl
  | deal s h' more => rfl
  | draw q t => rw [if_neg (of_decide_eq_false h)]; rfl
  | discard q t => rw [if_neg (of_decide_eq_false h)]; rfl
  | dora t => rfl
  | other e => rw [if_neg (of_decide_eq_false h)]; rfl

theorem meldFrom_move (q : Fin 4) (c : Nat) : meldFrom (Move.meld q c).event = meldOf q.val c := by
  have h1 : Event.get (Move.meld q c).event "who".toList = .ok (natDigits q.val) := rfl
  have h2 : Event.get (Move.meld q c).event "m".toList = .ok (natDigits c) := rfl
  unfold meldFrom
  rw [h1, h2]
  simp only [bind, Except.bind, pyInt_natDigits]

theorem lookup_among (given more : List (Str × Str)) (k : Str) :
    (writtenAmong given more).lookup k = (given ++ more).lookup k := by
  unfold writtenAmong
  have hm : ∀ l : List (Str × Str), (l.map (fun kv => (kv.1, (given.lookup kv.1).getD kv.2))).lookup k =
      (l.lookup k).map (fun v => (given.lookup k).getD v) := by
    intro l
    induction l with
    | nil => rfl
    | cons a r ih =>
      obtain ⟨a, b⟩ := a
      simp only [List.map_cons, List.lookup_cons]
      by_cases h : k = a
      · subst h; simp
      · have : (k == a) = false := by simpa using h
        rw [this]; exact ih
  have hf : ∀ l : List (Str × Str), (l.filter (fun kv => (more.lookup kv.1).isNone)).lookup k =
      if (more.lookup k).isNone then l.lookup k else none := by
    intro l
    induction l with
    | nil => simp
    | cons a r ih =>
      obtain ⟨a, b⟩ := a
      by_cases h : k = a
      · subst h
        cases hl : (more.lookup k).isNone with
        | true => simp [List.filter_cons, hl, List.lookup_cons]
        | false => rw [List.filter_cons, hl]; simp only [Bool.false_eq_true, if_false]; rw [ih, hl]; simp
      · have hk : (k == a) = false := by simpa using h
        rw [List.filter_cons]
        split
        · rw [List.lookup_cons, hk, ih, List.lookup_cons, hk]
        · rw [ih, List.lookup_cons, hk]
  rw [List.lookup_append, List.lookup_append, hm, hf]
  cases h1 : more.lookup k <;> cases h2 : given.lookup k <;> simp

theorem deal_lookup (s : List Int) (h : Fin 4 → List Int) (more : List (Str × Str)) (k : Str) :
    (Move.deal s h more).event.attrib.lookup k = (dealtAttrs s h ++ more).lookup k := lookup_among _ _ _

theorem deal_get (s : List Int) (h : Fin 4 → List Int) (more : List (Str × Str)) (k : Str) :
    (Move.deal s h more).event.get k = Event.get ⟨"INIT".toList, dealtAttrs s h ++ more⟩ k := by
  unfold Event.get
  rw [deal_lookup]

theorem get_hai (s : List Int) (h : Fin 4 → List Int) (more : List (Str × Str)) (p : Fin 4) :
    Event.get (Move.deal s h more).event (haiName p) = .ok (commaList (h p)) := by
  rw [deal_get]
  match p with
  | 0 => rfl
  | 1 => rfl
  | 2 => rfl
  | 3 => rfl

theorem get_seed (s : List Int) (h : Fin 4 → List Int) (more : List (Str × Str)) :
    Event.get (Move.deal s h more).event "seed".toList = .ok (commaList s) := by
  rw [deal_get]
  rfl

theorem get_dora (t : Nat) : Event.get (Move.dora t).event "hai".toList = .ok (natDigits t) := rfl

/-- the own tiles of a decoded meld -/
def ownTiles (q : Fin 4) (c : Nat) : List Int :=
  match meldOf q.val c with | .ok m => m.selfTiles | .error _ => []

theorem legalFor_of_play (p : Fin 4) {m : Move} (hm : LegalMove m) (hd : m.isDeal = false) : LegalFor p m :=
  ⟨hm, fun s h more he => by rw [he] at hd; cases hd⟩

theorem legalFor_deal {p : Fin 4} {seed : List Int} {hands : Fin 4 → List Int} {more : List (Str × Str)} {ms : List Move}
    (hs : seed ≠ []) (hh : hands p ≠ []) (hm : ∀ m ∈ ms, LegalMove m) (hd : ∀ m ∈ ms, m.isDeal = false) :
    ∀ m ∈ Move.deal seed hands more :: ms, LegalFor p m := by
  intro m h
  rcases List.mem_cons.1 h with rfl | h
  · refine ⟨hs, ?_⟩
    intro s' h' m' he
    cases he
    exact hh
  · exact legalFor_of_play p (hm m h) (hd m h)

theorem handScan_move (p : Fin 4) (l : List Int) {m : Move} (hmp : LegalFor p m) :
    handScan p l m.event = .ok (match m with
      | .deal _ h _ => some (h p).eraseDups
      | .draw q t => if q = p then some (setInsert l t) else none
      | .discard q t => if q = p then some (setSub l [(t : Int)]) else none
      | .meld q c => if q = p then some (setSub l (ownTiles q c)) else none
      | _ => none) := by
  have hm := hmp.1
  unfold handScan
  rw [isGameInit_move hm, playerDraw_move p hm, playerDiscard_move p hm, playerOpenHand_move p hm]
  cases m with
  | deal s h more =>
    simp only [Move.isDeal, if_true, get_hai, bind, Except.bind, intList_comma _ (hmp.2 _ _ _ rfl)]
    rfl
  | draw q t =>
    simp only [Move.isDeal, Bool.false_eq_true, if_false]
    by_cases h : q = p <;> simp [h, bind, Except.bind, pure, Except.pure]
  | discard q t =>
    simp only [Move.isDeal, Bool.false_eq_true, if_false]
    by_cases h : q = p <;> simp [h, bind, Except.bind, pure, Except.pure]
  | meld q c =>
    obtain ⟨m', hm'⟩ := hm
    simp only [Move.isDeal, Bool.false_eq_true, if_false, meldFrom_move, hm', ownTiles]
    by_cases h : q = p <;> simp [h, bind, Except.bind, pure, Except.pure]
  | dora t => simp [Move.isDeal, bind, Except.bind, pure, Except.pure]
  | other e => simp [Move.isDeal, bind, Except.bind, pure, Except.pure]

theorem pyIdx_last (l : List Int) (hne : l ≠ []) : pyIdx l (-1) = .ok (l.getLast hne) := by
  have hl : 0 < l.length := List.length_pos_iff.2 hne
  unfold pyIdx
  rw [if_neg (by omega), if_pos (by omega)]
  have : (-1 + (l.length : Int)).toNat = l.length - 1 := by omega
  rw [this, List.getLast_eq_getElem]
  simp [show l.length - 1 < l.length by omega]

theorem doraScan_move (l : List Int) {m : Move} (hm : LegalMove m) :
    doraScan l m.event = .ok (match m with
      | .deal s _ _ => some [s.getLastD 0]
      | .dora t => some (l ++ [(t : Int)])
      | _ => none) := by
  unfold doraScan
  rw [isGameInit_move hm, isDora_move hm]
  cases m with
  | deal s h more =>
    simp only [Move.isDeal, if_true, get_seed, bind, Except.bind, intList_comma _ (show s ≠ [] from hm), pyIdx_last _ (show s ≠ [] from hm)]
    simp only [pure, Except.pure]
    congr 3
    cases s with
    | nil => exact absurd rfl hm
    | cons a s => simp [List.getLastD]
  | dora t =>
    simp only [Move.isDeal, Bool.false_eq_true, if_false, if_true, get_dora, bind, Except.bind, pyInt_natDigits]
    rfl
  | draw q t => simp [Move.isDeal, pure, Except.pure]
  | discard q t => simp [Move.isDeal, pure, Except.pure]
  | meld q c => simp [Move.isDeal, pure, Except.pure]
  | other e => simp [Move.isDeal, pure, Except.pure]

theorem discardScan_move (p : Fin 4) (l : List Int) {m : Move} (hm : LegalMove m) :
    discardScan p l m.event = .ok (match m with
      | .deal _ _ _ => some []
      | .discard q t => if q = p then some (l ++ [(t : Int)]) else none
      | _ => none) := by
  unfold discardScan
  rw [isGameInit_move hm, playerDiscard_move p hm]
  cases m with
  | discard q t =>
    by_cases h : q = p <;> simp [h, Move.isDeal, pure, Except.pure]
  | _ => simp [Move.isDeal, pure, Except.pure]

theorem invisibleScan_move (f : Bool) (l : List InvElem) {m : Move} (hm : LegalMove m) :
    invisibleScan f l m.event = .ok (match m with
      | .deal s _ _ => some (setSub (initialInvisible f) [.num (s.getLastD 0)])
      | .discard _ t => if t = 0 then none else some (setSub l [.num t])
      | .meld q c => some (setSub l ((ownTiles q c).map InvElem.num))
      | .dora t => some (setSub l [.num t])
      | _ => none) := by
  unfold invisibleScan doraScanValue
  rw [isGameInit_move hm, discardValue_move hm, isOpenHand_move hm, isDora_move hm, doraScan_move [] hm]
  cases m with
  | deal s h more => simp [Move.isDeal, bind, Except.bind, pure, Except.pure]
  | draw q t => simp [Move.isDeal, pure, Except.pure]
  | discard q t =>
    by_cases h : t = 0 <;> simp [h, Move.isDeal, pure, Except.pure]
  | meld q c =>
    obtain ⟨m', hm'⟩ := hm
    simp [Move.isDeal, meldFrom_move, hm', ownTiles, bind, Except.bind, pure, Except.pure]
  | dora t => simp [Move.isDeal, bind, Except.bind, pure, Except.pure]
  | other e => simp [Move.isDeal, pure, Except.pure]

theorem meldScan_move (p : Fin 4) (l : List Meld) {m : Move} (hm : LegalMove m) :
    meldScan p l m.event = match m with
      | .deal _ _ _ => .ok (some [])
      | .meld q c => if q = p then
          (match meldOf q.val c with
            | .ok x => if x.cls = .addedKan then (upgradeTriplets x l).map some else .ok (some (l ++ [x]))
            | .error e => .error e)
          else .ok none
      | _ => .ok none := by
  unfold meldScan
  rw [isGameInit_move hm, playerOpenHand_move p hm]
  cases m with
  | meld q c =>
    obtain ⟨m', hm'⟩ := hm
    by_cases h : q = p
    · subst h
      simp only [decide_true, bind, Except.bind, if_true, meldFrom_move, hm', pure, Except.pure]
      split
      · cases upgradeTriplets m' l <;> rfl
      · rfl
    · simp [h, Move.isDeal, bind, Except.bind, pure, Except.pure]
  | _ => simp [Move.isDeal, bind, Except.bind, pure, Except.pure]

end Verif.Proofs
