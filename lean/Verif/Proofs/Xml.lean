import Verif.Spec.Xml
import Verif.Proofs.Str
import Mathlib.Tactic.Tauto
import Mathlib.Data.List.Basic

/-!
The XML reader reads exactly the texts of the grammar.
-/
namespace Verif.Proofs
open Verif.Py Verif.Spec

/-! ### characters -/

theorem xmlSpace_iff (c : Char) : xmlSpace c = true ↔ Blank [c] := by
  unfold xmlSpace Blank
  simp [or_assoc]

theorem blank_all {w : Str} : Blank w ↔ w.all xmlSpace = true := by
  unfold Blank
  rw [List.all_eq_true]
  constructor
  · intro h c hc
    exact (xmlSpace_iff c).2 (by intro x hx; rw [List.mem_singleton] at hx; subst hx; exact h _ hc)
  · intro h c hc
    exact (xmlSpace_iff c).1 (h c hc) c (by simp)

theorem docChar_iff (n : Nat) : xmlChar n = true ↔ DocChar n := by
  unfold xmlChar DocChar
  simp [or_assoc]

theorem nameStart_iff (c : Char) : nameStart c = true ↔ (('a' ≤ c ∧ c ≤ 'z') ∨ ('A' ≤ c ∧ c ≤ 'Z') ∨ c = '_') := by
  unfold nameStart
  simp [or_assoc]

theorem nameChar_iff (x : Char) : nameChar x = true ↔
    (('a' ≤ x ∧ x ≤ 'z') ∨ ('A' ≤ x ∧ x ≤ 'Z') ∨ ('0' ≤ x ∧ x ≤ '9') ∨ x = '_' ∨ x = '-' ∨ x = '.') := by
  have hd : isDigit x = true ↔ ('0' ≤ x ∧ x ≤ '9') := by
    unfold isDigit
    simp [Char.le_def, UInt32.le_iff_toNat_le]
  unfold nameChar
  simp only [Bool.or_eq_true, nameStart_iff, hd, decide_eq_true_eq]
  tauto

theorem isName_iff {n : Str} : IsName n ↔ ∃ c t, n = c :: t ∧ nameStart c = true ∧ t.all nameChar = true := by
  unfold IsName
  constructor
  · rintro ⟨c, t, rfl, h1, h2⟩
    exact ⟨c, t, rfl, (nameStart_iff c).2 h1, List.all_eq_true.2 (fun x hx => (nameChar_iff x).2 (h2 x hx))⟩
  · rintro ⟨c, t, rfl, h1, h2⟩
    exact ⟨c, t, rfl, (nameStart_iff c).1 h1, fun x hx => (nameChar_iff x).1 (List.all_eq_true.1 h2 x hx)⟩

/-! ### lists -/

theorem mem_takeWhile_holds {α : Type} {p : α → Bool} {s : List α} {x : α} (h : x ∈ s.takeWhile p) : p x = true := by
  induction s with
  | nil => simp at h
  | cons y s ih =>
    rw [List.takeWhile_cons] at h
    split at h
    · rcases List.mem_cons.1 h with rfl | h
      · assumption
      · exact ih h
    · simp at h

theorem drop_blank {w r : Str} (hw : Blank w) (hr : r.head?.all (fun c => !xmlSpace c) = true) :
    (w ++ r).dropWhile xmlSpace = r := by
  rw [blank_all] at hw
  induction w with
  | nil =>
    cases r with
    | nil => rfl
    | cons c r =>
      simp only [List.head?_cons, Option.all_some, Bool.not_eq_true'] at hr
      simp [hr]
  | cons c w ih =>
    simp only [List.all_cons, Bool.and_eq_true] at hw
    rw [List.cons_append, List.dropWhile_cons, if_pos hw.1]
    exact ih hw.2

theorem take_drop_blank (s : Str) : ∃ w, Blank w ∧ s = w ++ s.dropWhile xmlSpace := by
  refine ⟨s.takeWhile xmlSpace, ?_, (List.takeWhile_append_dropWhile).symm⟩
  rw [blank_all, List.all_eq_true]
  intro x hx
  exact mem_takeWhile_holds hx

theorem drop_head {s r : Str} {c : Char} (h : s.dropWhile xmlSpace = c :: r) : xmlSpace c = false := by
  have := List.head?_dropWhile_not xmlSpace s
  rw [h] at this
  simpa using this

theorem scanName_complete {n r : Str} (hn : IsName n) (hr : r.head?.all (fun c => !nameChar c) = true) :
    scanName (n ++ r) = some (n, r) := by
  obtain ⟨c, t, rfl, h1, h2⟩ := isName_iff.1 hn
  unfold scanName
  simp only [List.cons_append, h1, if_true, Option.some.injEq, Prod.mk.injEq, List.cons.injEq, true_and]
  clear h1 hn
  induction t with
  | nil =>
    cases r with
    | nil => exact ⟨rfl, rfl⟩
    | cons d r =>
      simp only [List.head?_cons, Option.all_some, Bool.not_eq_true'] at hr
      simp [hr]
  | cons d t ih =>
    simp only [List.all_cons, Bool.and_eq_true] at h2
    simp only [List.cons_append, List.takeWhile_cons, List.dropWhile_cons, h2.1, if_true, List.cons.injEq, true_and]
    exact ih h2.2

theorem scanName_sound {s n r : Str} (h : scanName s = some (n, r)) : IsName n ∧ s = n ++ r ∧ r.head?.all (fun c => !nameChar c) = true := by
  unfold scanName at h
  split at h
  · cases h
  · rename_i c t
    split at h
    · rename_i hc
      simp only [Option.some.injEq, Prod.mk.injEq] at h
      obtain ⟨rfl, rfl⟩ := h
      refine ⟨isName_iff.2 ⟨c, _, rfl, hc, ?_⟩, ?_, ?_⟩
      · rw [List.all_eq_true]
        intro x hx
        exact mem_takeWhile_holds hx
      · rw [List.cons_append, List.takeWhile_append_dropWhile]
      · have := List.head?_dropWhile_not nameChar t
        cases hd : (t.dropWhile nameChar).head? with
        | none => rfl
        | some y => rw [hd] at this; simpa using this
    · cases h

/-! ### references -/

theorem char_between (a b c : Char) : (a ≤ c ∧ c ≤ b) ↔ (a.toNat ≤ c.toNat ∧ c.toNat ≤ b.toNat) := Iff.rfl

theorem xmlDigit_iff (c : Char) (d : Nat) : xmlDigit c = some d ↔ RefDecDigit c d := by
  unfold xmlDigit RefDecDigit
  have : ('0' ≤ c ∧ c ≤ '9') ↔ (48 ≤ c.toNat ∧ c.toNat ≤ 57) := char_between _ _ _
  simp only [this, show '0'.toNat = 48 from rfl]
  split
  · simp only [Option.some.injEq]; omega
  · simp only [reduceCtorEq, false_iff]; omega

theorem xmlHex_iff (c : Char) (d : Nat) : xmlHex c = some d ↔ RefHexDigit c d := by
  unfold xmlHex RefHexDigit RefDecDigit
  have h1 : ('0' ≤ c ∧ c ≤ '9') ↔ (48 ≤ c.toNat ∧ c.toNat ≤ 57) := char_between _ _ _
  have h2 : ('a' ≤ c ∧ c ≤ 'f') ↔ (97 ≤ c.toNat ∧ c.toNat ≤ 102) := char_between _ _ _
  have h3 : ('A' ≤ c ∧ c ≤ 'F') ↔ (65 ≤ c.toNat ∧ c.toNat ≤ 70) := char_between _ _ _
  simp only [h1, h2, h3, show '0'.toNat = 48 from rfl, show 'a'.toNat = 97 from rfl, show 'A'.toNat = 65 from rfl]
  split
  · simp only [Option.some.injEq]; omega
  · split
    · simp only [Option.some.injEq]; omega
    · split
      · simp only [Option.some.injEq]; omega
      · simp only [reduceCtorEq, false_iff]; omega

theorem scanDigits_append (digit : Char → Option Nat) (base acc : Nat) (s : Str) (c : Char) (d : Nat) (hd : digit c = some d) :
    scanDigits digit base acc (s ++ [c]) = (scanDigits digit base acc s).map (fun n => n * base + d) := by
  induction s generalizing acc with
  | nil => simp [scanDigits, hd]
  | cons x s ih =>
    simp only [List.cons_append, scanDigits]
    split
    · exact ih _
    · rfl

theorem scanDigits_bad (digit : Char → Option Nat) (base acc : Nat) (s : Str) (c : Char) (hd : digit c = none) :
    scanDigits digit base acc (s ++ [c]) = none := by
  induction s generalizing acc with
  | nil => simp [scanDigits, hd]
  | cons x s ih =>
    simp only [List.cons_append, scanDigits]
    split
    · exact ih _
    · rfl

theorem scanDigits_iff {digit : Char → Option Nat} {base : Nat} {D : Char → Nat → Prop} (hD : ∀ c d, digit c = some d ↔ D c d)
    (s : Str) (n : Nat) : (s ≠ [] ∧ scanDigits digit base 0 s = some n) ↔ DigitsOf base D s n := by
  constructor
  · rintro ⟨hne, h⟩
    induction hs : s.length using Nat.strongRecOn generalizing s n with
    | _ k ih =>
      obtain ⟨t, c, rfl⟩ : ∃ t c, s = t ++ [c] := ⟨s.dropLast, s.getLast hne, (List.dropLast_append_getLast hne).symm⟩
      cases hc : digit c with
      | none => rw [scanDigits_bad _ _ _ _ _ hc] at h; cases h
      | some d =>
        rw [scanDigits_append _ _ _ _ _ d hc] at h
        by_cases ht : t = []
        · subst ht
          simp only [scanDigits, Option.map_some, Nat.zero_mul, Nat.zero_add, Option.some.injEq] at h
          subst h
          exact .one ((hD _ _).1 hc)
        · obtain ⟨m, hm, rfl⟩ := Option.map_eq_some_iff.1 h
          exact .more (ih t.length (by rw [← hs]; simp) t m ht hm rfl) ((hD _ _).1 hc)
  · intro h
    induction h with
    | one hc => exact ⟨by simp, by simp [scanDigits, (hD _ _).2 hc]⟩
    | more _ hc ih =>
      refine ⟨by simp, ?_⟩
      rw [scanDigits_append _ _ _ _ _ _ ((hD _ _).2 hc), ih.2]
      rfl

theorem toNat_ofNat {n : Nat} (h : xmlChar n = true) : (Char.ofNat n).toNat = n := by
  rw [docChar_iff] at h
  unfold DocChar at h
  have hv : n.isValidChar := by
    unfold Nat.isValidChar
    omega
  simp [Char.ofNat, hv, Char.toNat, Char.ofNatAux]

theorem numbered_iff (o : Option Nat) (c : Char) : numberedChar o = some c ↔ o = some c.toNat ∧ DocChar c.toNat := by
  unfold numberedChar
  cases o with
  | none => simp
  | some n =>
    dsimp only
    split
    · rename_i h
      constructor
      · intro hc
        cases hc
        rw [toNat_ofNat h]
        exact ⟨rfl, (docChar_iff n).1 h⟩
      · rintro ⟨hc, _⟩
        cases hc
        rw [Char.ofNat_toNat]
    · rename_i h
      constructor
      · intro hc; cases hc
      · rintro ⟨hc, hd⟩
        cases hc
        exact absurd ((docChar_iff _).2 hd) h

theorem refChar_complete {c : Char} {r : Str} (h : RefText c r) : refChar r = some c := by
  cases h with
  | amp => decide +kernel
  | lt => decide +kernel
  | gt => decide +kernel
  | quot => decide +kernel
  | apos => decide +kernel
  | dec hds hd =>
    rename_i ds
    obtain ⟨hne, hs⟩ := (scanDigits_iff xmlDigit_iff ds _).2 hds
    obtain ⟨d, ds, rfl⟩ := List.exists_cons_of_ne_nil hne
    have hx : d ≠ 'x' := by
      rintro rfl
      revert hs
      rw [scanDigits, show xmlDigit 'x' = none from by decide]
      simp
    unfold refChar
    rw [if_neg (by intro e; cases e), if_neg (by intro e; cases e), if_neg (by intro e; cases e), if_neg (by intro e; cases e),
      if_neg (by intro e; cases e)]
    split
    · rename_i heq
      injection heq with _ heq
      injection heq with heq _
      exact absurd heq hx
    · rename_i heq
      injection heq with _ heq
      rw [← heq]
      exact (numbered_iff _ _).2 ⟨hs, hd⟩
    · rename_i h1 h2
      exact absurd rfl (h2 d ds)
  | hex hds hd =>
    rename_i ds
    obtain ⟨hne, hs⟩ := (scanDigits_iff xmlHex_iff ds _).2 hds
    obtain ⟨d, ds, rfl⟩ := List.exists_cons_of_ne_nil hne
    unfold refChar
    rw [if_neg (by intro e; cases e), if_neg (by intro e; cases e), if_neg (by intro e; cases e), if_neg (by intro e; cases e),
      if_neg (by intro e; cases e)]
    exact (numbered_iff _ _).2 ⟨hs, hd⟩

theorem refChar_sound {c : Char} {r : Str} (h : refChar r = some c) : RefText c r := by
  unfold refChar at h
  split at h
  · rename_i e; cases e; cases h; exact .amp
  split at h
  · rename_i e; cases e; cases h; exact .lt
  split at h
  · rename_i e; cases e; cases h; exact .gt
  split at h
  · rename_i e; cases e; cases h; exact .quot
  split at h
  · rename_i e; cases e; cases h; exact .apos
  split at h
  · obtain ⟨h1, h2⟩ := (numbered_iff _ _).1 h
    exact .hex ((scanDigits_iff xmlHex_iff _ _).1 ⟨by simp, h1⟩) h2
  · obtain ⟨h1, h2⟩ := (numbered_iff _ _).1 h
    exact .dec ((scanDigits_iff xmlDigit_iff _ _).1 ⟨by simp, h1⟩) h2
  · cases h

theorem digits_no_semi {base : Nat} {D : Char → Nat → Prop} (hD : ∀ c d, D c d → c ≠ ';') {s : Str} {n : Nat}
    (h : DigitsOf base D s n) : ';' ∉ s := by
  induction h with
  | one hc => simpa using (hD _ _ hc).symm
  | more _ hc ih => simpa [ih] using (hD _ _ hc).symm

theorem ref_no_semi {c : Char} {r : Str} (h : RefText c r) : ';' ∉ r := by
  cases h with
  | amp => decide
  | lt => decide
  | gt => decide
  | quot => decide
  | apos => decide
  | dec hds _ =>
    have := digits_no_semi (D := RefDecDigit) (by rintro _ d ⟨h, hc⟩ rfl; revert hc; rw [show ';'.toNat = 59 from rfl, show '0'.toNat = 48 from rfl]; omega) hds
    simpa using this
  | hex hds _ =>
    have := digits_no_semi (D := RefHexDigit) (by
      rintro _ d h rfl
      unfold RefHexDigit RefDecDigit at h
      rw [show ';'.toNat = 59 from rfl, show '0'.toNat = 48 from rfl, show 'a'.toNat = 97 from rfl, show 'A'.toNat = 65 from rfl] at h
      omega) hds
    simpa using this

/-! ### values -/

theorem scanValue_ref (q : Char) (acc r t : Str) (hr : ';' ∉ r) :
    scanValue q (some acc) (r ++ ';' :: t) =
      (match refChar (acc ++ r) with
       | some ch => (scanValue q none t).map (fun p => (ch :: p.1, p.2))
       | none => none) := by
  induction r generalizing acc with
  | nil => simp [scanValue]; cases refChar acc <;> rfl
  | cons c r ih =>
    have hc : c ≠ ';' := by rintro rfl; exact hr (by simp)
    rw [List.cons_append, scanValue, if_neg hc, ih _ (fun h => hr (by simp [h]))]
    simp

theorem space_blank {c : Char} (h : Blank [c]) : xmlSpace c = true := (xmlSpace_iff c).2 h

theorem scanValue_complete {q : Char} (hq : q = '"' ∨ q = '\'') {v t : Str} (h : ValueText q v t) (r : Str) :
    scanValue q none (t ++ q :: r) = some (v, r) := by
  induction h with
  | nil => simp [scanValue]
  | char h1 h2 h3 h4 h5 _ ih =>
    rename_i c v t _
    have hs : ¬ xmlSpace c = true := fun h => h4 ((xmlSpace_iff c).1 h)
    rw [List.cons_append, scanValue, if_neg h1, if_neg h2, if_neg h3, if_neg, if_neg hs, if_pos ((docChar_iff _).2 h5), ih]
    · rfl
    · rintro ⟨rfl, _⟩; exact hs (by decide)
  | blank h1 h2 _ ih =>
    rename_i c v t _
    have hs := space_blank h1
    rw [List.cons_append, scanValue, if_neg, if_neg, if_neg, if_neg, if_pos hs, ih]
    · rfl
    · rintro ⟨hc, hh⟩
      cases t with
      | nil =>
        simp only [List.nil_append, List.head?_cons, Option.some.injEq] at hh
        subst hh
        exact absurd hq (by decide)
      | cons d t => exact h2 ⟨hc, by simpa using hh⟩
    · rintro rfl; exact absurd hs (by decide)
    · rintro rfl; exact absurd hs (by decide)
    · rintro rfl
      rcases hq with rfl | rfl <;> exact absurd hs (by decide)
  | newline _ ih =>
    rename_i v t _
    have n1 : '\r' ≠ q := by rcases hq with rfl | rfl <;> decide
    have n2 : '\n' ≠ q := by rcases hq with rfl | rfl <;> decide
    rw [List.cons_append, scanValue, if_neg n1, if_neg (by decide), if_neg (by decide), if_pos ⟨rfl, by simp⟩,
      List.cons_append, scanValue, if_neg n2, if_neg (by decide), if_neg (by decide), if_neg (by rintro ⟨h, _⟩; exact absurd h (by decide)),
      if_pos (by decide), ih]
    rfl
  | ref hr _ ih =>
    rename_i c v r t _
    have n1 : '&' ≠ q := by rcases hq with rfl | rfl <;> decide
    rw [List.append_assoc, List.cons_append, List.cons_append, scanValue, if_neg n1, if_neg (by decide), if_pos rfl,
      scanValue_ref q [] r _ (ref_no_semi hr), List.nil_append, refChar_complete hr]
    dsimp only
    rw [ih]
    rfl

theorem value_newline {q : Char} {v t : Str} (h : ValueText q v ('\n' :: t)) : ∃ v', v = ' ' :: v' ∧ ValueText q v' t := by
  generalize hs : '\n' :: t = s at h
  cases h with
  | nil => cases hs
  | char _ _ _ h4 _ _ => cases hs; exact absurd ((xmlSpace_iff '\n').1 (by decide)) h4
  | blank _ _ h => cases hs; exact ⟨_, rfl, h⟩
  | newline _ => exact absurd (List.cons.inj hs).1 (by decide)
  | ref _ _ => exact absurd (List.cons.inj hs).1 (by decide)

theorem scanValue_sound {q : Char} (hq : q = '"' ∨ q = '\'') (s : Str) : ∀ {v r : Str},
    (scanValue q none s = some (v, r) → ∃ t, s = t ++ q :: r ∧ ValueText q v t) ∧
    (∀ acc, scanValue q (some acc) s = some (v, r) →
      ∃ x t c v', s = x ++ ';' :: t ++ q :: r ∧ v = c :: v' ∧ refChar (acc ++ x) = some c ∧ ValueText q v' t) := by
  induction s with
  | nil => intro v r; exact ⟨fun h => by simp [scanValue] at h, fun acc h => by simp [scanValue] at h⟩
  | cons c s ih =>
    intro v r
    constructor
    · intro h
      rw [scanValue] at h
      split at h
      · rename_i hc
        cases h
        exact ⟨[], by simp [hc], .nil⟩
      rename_i hcq
      split at h
      · cases h
      rename_i hlt
      split at h
      · rename_i hamp
        obtain ⟨x, t, ch, v', rfl, rfl, hr, hv⟩ := ih.2 [] h
        exact ⟨'&' :: x ++ ';' :: t, by simp [hamp], .ref (refChar_sound hr) hv⟩
      rename_i hamp
      split at h
      · rename_i hn
        obtain ⟨rfl, hh⟩ := hn
        obtain ⟨t, ht, hv⟩ := ih.1 h
        cases t with
        | nil =>
          rw [ht] at hh
          simp only [List.nil_append, List.head?_cons, Option.some.injEq] at hh
          subst hh
          exact absurd hq (by decide)
        | cons d t =>
          rw [ht] at hh
          simp only [List.cons_append, List.head?_cons, Option.some.injEq] at hh
          subst hh
          obtain ⟨v', rfl, hv'⟩ := value_newline hv
          exact ⟨'\r' :: '\n' :: t, by simp [ht], .newline hv'⟩
      rename_i hnl
      split at h
      · rename_i hs
        obtain ⟨⟨v', r'⟩, h1, h2⟩ := Option.map_eq_some_iff.1 h
        simp only [Prod.mk.injEq] at h2
        obtain ⟨rfl, rfl⟩ := h2
        obtain ⟨t, rfl, hv⟩ := ih.1 h1
        refine ⟨c :: t, by simp, .blank ((xmlSpace_iff c).1 hs) ?_ hv⟩
        rintro ⟨hc, hh⟩
        exact hnl ⟨hc, by cases t with | nil => simp at hh | cons d t => simpa using hh⟩
      rename_i hs
      split at h
      · rename_i hx
        obtain ⟨⟨v', r'⟩, h1, h2⟩ := Option.map_eq_some_iff.1 h
        simp only [Prod.mk.injEq] at h2
        obtain ⟨rfl, rfl⟩ := h2
        obtain ⟨t, rfl, hv⟩ := ih.1 h1
        exact ⟨c :: t, by simp, .char hcq hlt hamp (fun hb => hs ((xmlSpace_iff c).2 hb)) ((docChar_iff _).1 hx) hv⟩
      · cases h
    · intro acc h
      rw [scanValue] at h
      split at h
      · rename_i hc
        subst hc
        split at h
        · rename_i ch hch
          obtain ⟨⟨v', r'⟩, h1, h2⟩ := Option.map_eq_some_iff.1 h
          simp only [Prod.mk.injEq] at h2
          obtain ⟨rfl, rfl⟩ := h2
          obtain ⟨t, rfl, hv⟩ := ih.1 h1
          exact ⟨[], t, ch, v', by simp, rfl, by simpa using hch, hv⟩
        · cases h
      · obtain ⟨x, t, ch, v', rfl, rfl, hr, hv⟩ := ih.2 _ h
        exact ⟨c :: x, t, ch, v', by simp, rfl, by simpa using hr, hv⟩

/-! ### attributes -/

theorem name_head {n : Str} (hn : IsName n) : ∃ c t, n = c :: t ∧ xmlSpace c = false ∧ c ≠ '/' ∧ c ≠ '>' ∧ nameStart c = true := by
  obtain ⟨c, t, rfl, h1, _⟩ := isName_iff.1 hn
  refine ⟨c, t, rfl, ?_, ?_, ?_, h1⟩
  · cases hs : xmlSpace c with
    | false => rfl
    | true =>
      exfalso
      simp only [xmlSpace, Bool.or_eq_true, decide_eq_true_eq] at hs
      rcases hs with ((rfl | rfl) | rfl) | rfl <;> exact absurd h1 (by decide)
  · rintro rfl; exact absurd h1 (by decide)
  · rintro rfl; exact absurd h1 (by decide)

theorem blank_name_end {w r : Str} (hw : Blank w) (hr : r.head?.all (fun c => !nameChar c) = true) :
    (w ++ r).head?.all (fun c => !nameChar c) = true := by
  cases w with
  | nil => exact hr
  | cons c w =>
    simp only [List.cons_append, List.head?_cons, Option.all_some, Bool.not_eq_true']
    rcases hw c (by simp) with rfl | rfl | rfl | rfl <;> decide

theorem scanAttr_complete {n w1 w2 v t r : Str} {q : Char} (hn : IsName n) (h1 : Blank w1) (h2 : Blank w2)
    (hq : q = '"' ∨ q = '\'') (hv : ValueText q v t) :
    scanAttr (n ++ w1 ++ '=' :: w2 ++ q :: t ++ q :: r) = some ((n, v), r) := by
  unfold scanAttr
  have e : n ++ w1 ++ '=' :: w2 ++ q :: t ++ q :: r = n ++ (w1 ++ '=' :: (w2 ++ q :: (t ++ q :: r))) := by simp
  rw [e, scanName_complete hn (blank_name_end h1 (by simp; decide))]
  dsimp only
  rw [drop_blank h1 (by simp; decide)]
  show (match (w2 ++ q :: (t ++ q :: r)).dropWhile xmlSpace with
    | q :: s => if q = '"' ∨ q = '\'' then (scanValue q none s).map (fun (p : Str × Str) => ((n, p.1), p.2)) else none
    | [] => none) = _
  rw [drop_blank h2 (by rcases hq with rfl | rfl <;> simp <;> decide)]
  dsimp only
  rw [if_pos hq, scanValue_complete hq hv]
  rfl

theorem scanAttr_sound {s r : Str} {a : Str × Str} (h : scanAttr s = some (a, r)) :
    ∃ w1 w2 q t, s = a.1 ++ w1 ++ '=' :: w2 ++ q :: t ++ q :: r ∧ IsName a.1 ∧ Blank w1 ∧ Blank w2 ∧ (q = '"' ∨ q = '\'') ∧
      ValueText q a.2 t := by
  unfold scanAttr at h
  split at h
  · cases h
  rename_i name s1 hn
  obtain ⟨hN, rfl, _⟩ := scanName_sound hn
  split at h
  · rename_i s2 hs2
    obtain ⟨w1, hw1, e1⟩ := take_drop_blank s1
    split at h
    · rename_i q s3 hs3
      obtain ⟨w2, hw2, e2⟩ := take_drop_blank s2
      split at h
      · rename_i hq
        obtain ⟨⟨v, r'⟩, h1, h2⟩ := Option.map_eq_some_iff.1 h
        simp only [Prod.mk.injEq] at h2
        obtain ⟨rfl, rfl⟩ := h2
        obtain ⟨t, ht, hv⟩ := (scanValue_sound hq s3).1 h1
        refine ⟨w1, w2, q, t, ?_, hN, hw1, hw2, hq, hv⟩
        rw [e1, hs2, e2, hs3, ht]
        simp
      · cases h
    · cases h
  · cases h

theorem scanAttrs_complete {as : List (Str × Str)} {t : Str} (h : AttrsText as t) :
    ∀ {f : Nat} {w r : Str} {c : Char}, Blank w → (c = '/' ∨ c = '>') → t.length < f →
      scanAttrs f (t ++ w ++ c :: r) = some (as, c :: r) := by
  induction h with
  | nil =>
    intro f w r c hw hc hf
    obtain ⟨f, rfl⟩ := Nat.exists_eq_succ_of_ne_zero (show f ≠ 0 by omega)
    have : xmlSpace c = false := by rcases hc with rfl | rfl <;> decide
    rw [scanAttrs, List.nil_append, drop_blank hw (by simp [this])]
    dsimp only
    rw [if_pos hc]
  | cons hw0 hw0' hn h1 h2 hq hv _ ih =>
    rename_i w0 n w1 w2 q v t as u _
    intro f w r c hw hc hf
    obtain ⟨f, rfl⟩ := Nat.exists_eq_succ_of_ne_zero (show f ≠ 0 by omega)
    obtain ⟨d, n', hdn, hd, hd1, hd2, hd3⟩ := name_head hn
    obtain ⟨b, w0', rfl⟩ := List.exists_cons_of_ne_nil hw0'
    have e : b :: w0' ++ n ++ w1 ++ '=' :: w2 ++ q :: t ++ q :: u ++ w ++ c :: r =
        (b :: w0') ++ (n ++ w1 ++ '=' :: w2 ++ q :: t ++ q :: (u ++ w ++ c :: r)) := by simp
    rw [scanAttrs, e, drop_blank hw0 (by rw [hdn]; simp [hd])]
    have hb : xmlSpace b = true := space_blank (fun x hx => hw0 x (by rw [List.mem_singleton] at hx; simp [hx]))
    have key := scanAttr_complete (r := u ++ w ++ c :: r) hn h1 h2 hq hv
    have hlen : u.length < f := by simp at hf; omega
    have rest := ih (w := w) (r := r) hw hc hlen
    rw [hdn] at key ⊢
    simp only [List.cons_append, List.append_assoc] at key rest ⊢
    rw [if_neg (by rintro (rfl | rfl) <;> contradiction), if_pos (by simp [hb]), key]
    dsimp only
    rw [rest]
    rfl

theorem scanAttrs_sound {f : Nat} : ∀ {s r : Str} {as : List (Str × Str)}, scanAttrs f s = some (as, r) →
    ∃ t w, s = t ++ w ++ r ∧ AttrsText as t ∧ Blank w ∧ ∃ c r', r = c :: r' ∧ (c = '/' ∨ c = '>') := by
  induction f with
  | zero => intro s r as h; simp [scanAttrs] at h
  | succ f ih =>
    intro s r as h
    rw [scanAttrs] at h
    obtain ⟨w, hw, e⟩ := take_drop_blank s
    split at h
    · cases h
    rename_i c r0 hs
    split at h
    · rename_i hc
      cases h
      exact ⟨[], w, by rw [e, hs]; simp, .nil, hw, c, r0, rfl, hc⟩
    split at h
    · rename_i hh
      split at h
      · cases h
      rename_i a s' ha
      obtain ⟨⟨as', r''⟩, h1, h2⟩ := Option.map_eq_some_iff.1 h
      simp only [Prod.mk.injEq] at h2
      obtain ⟨rfl, rfl⟩ := h2
      obtain ⟨t, w', rfl, hA, hw', hr⟩ := ih h1
      obtain ⟨w1, w2, q, t1, hs', hN, hb1, hb2, hq, hv⟩ := scanAttr_sound ha
      have hwne : w ≠ [] := by
        rintro rfl
        rw [List.nil_append] at e
        rw [e, hs] at hh
        have := drop_head hs
        simp [this] at hh
      refine ⟨w ++ a.1 ++ w1 ++ '=' :: w2 ++ q :: t1 ++ q :: t, w', ?_, .cons hw hwne hN hb1 hb2 hq hv hA, hw', hr⟩
      rw [e, hs, hs']
      simp
    · cases h

/-! ### elements -/

theorem attrs_end {as : List (Str × Str)} {t w r : Str} {c : Char} (h : AttrsText as t) (hw : Blank w) (hc : c = '/' ∨ c = '>') :
    (t ++ w ++ c :: r).head?.all (fun c => !nameChar c) = true := by
  cases h with
  | nil => exact blank_name_end hw (by rcases hc with rfl | rfl <;> simp <;> decide)
  | cons hw0 hw0' =>
    rename_i w0 n w1 w2 q v t as u _ _ _ _ _ _
    obtain ⟨b, w0', rfl⟩ := List.exists_cons_of_ne_nil hw0'
    have : nameChar b = false := by
      rcases hw0 b (by simp) with rfl | rfl | rfl | rfl <;> decide
    simp [this]

theorem elem_head {e : Elem} {t : Str} (h : ElemText e t) : ∃ c t', t = '<' :: c :: t' ∧ c ≠ '/' ∧ c ≠ '?' := by
  have q : ∀ {n : Str}, IsName n → ∃ c t', n = c :: t' ∧ c ≠ '/' ∧ c ≠ '?' := by
    intro n hn
    obtain ⟨c, t', rfl, h1, h2, _, h3⟩ := name_head hn
    exact ⟨c, t', rfl, h2, by rintro rfl; exact absurd h3 (by decide)⟩
  cases h with
  | empty hn => obtain ⟨c, t', rfl, hc⟩ := q hn; exact ⟨c, _, by simp; rfl, hc⟩
  | full hn => obtain ⟨c, t', rfl, hc⟩ := q hn; exact ⟨c, _, by simp; rfl, hc⟩

theorem scan_complete (f : Nat) :
    (∀ {e : Elem} {t : Str} (r : Str), ElemText e t → t.length < f → scanElem f (t ++ r) = some (e, r)) ∧
    (∀ {es : List Elem} {u : Str} (r : Str), ContentText es u → u.length + 1 < f → scanContent f (u ++ '<' :: '/' :: r) = some (es, r)) := by
  induction f with
  | zero => exact ⟨fun _ _ h => absurd h (by omega), fun _ _ h => absurd h (by omega)⟩
  | succ f ih =>
    constructor
    · intro e t r h hf
      cases h with
      | empty hn hd hA hw =>
        rename_i n as t w
        have e : '<' :: n ++ t ++ w ++ "/>".toList ++ r = '<' :: (n ++ (t ++ w ++ '/' :: '>' :: r)) := by simp
        rw [e, scanElem]
        rw [scanName_complete hn (attrs_end hA hw (Or.inl rfl))]
        dsimp only
        rw [scanAttrs_complete hA hw (Or.inl rfl) (by simp; omega)]
        dsimp only
        rw [if_pos hd]
        rfl
      | full hn hd hA hw hC hw2 =>
        rename_i n as t w kids u w2
        have e : '<' :: n ++ t ++ w ++ '>' :: u ++ "</".toList ++ n ++ w2 ++ ">".toList ++ r =
            '<' :: (n ++ (t ++ w ++ '>' :: (u ++ '<' :: '/' :: (n ++ (w2 ++ '>' :: r))))) := by simp
        rw [e, scanElem]
        rw [scanName_complete hn (attrs_end hA hw (Or.inr rfl))]
        dsimp only
        rw [scanAttrs_complete hA hw (Or.inr rfl) (by simp; omega)]
        dsimp only
        rw [if_pos hd]
        show (match scanContent f (u ++ '<' :: '/' :: (n ++ (w2 ++ '>' :: r))) with
          | none => none
          | some (children, s) =>
            match scanName s with
            | none => none
            | some (name', s) =>
              match s.dropWhile xmlSpace with
              | '>' :: s => if name' = n then some (Elem.mk n as children, s) else none
              | _ => none) = _
        rw [ih.2 _ hC (by simp at hf; omega)]
        dsimp only
        rw [scanName_complete hn (blank_name_end hw2 (by simp; decide))]
        dsimp only
        rw [drop_blank hw2 (by simp; decide)]
        show (if n = n then some (Elem.mk n as kids, r) else none) = _
        rw [if_pos rfl]
    · intro es u r h hf
      cases h with
      | nil hw =>
        rw [scanContent, drop_blank hw (by simp; decide)]
        rfl
      | cons hw hE hC =>
        rename_i w e t es u
        obtain ⟨c, t', ht, hc, _⟩ := elem_head hE
        have e1 : w ++ t ++ u ++ '<' :: '/' :: r = w ++ (t ++ (u ++ '<' :: '/' :: r)) := by simp
        have hl : t.length + u.length < f := by simp at hf; omega
        have h4 : 2 ≤ t.length := by rw [ht]; simp
        rw [scanContent, e1, drop_blank hw (by rw [ht]; simp; decide)]
        have hx := ih.1 (u ++ '<' :: '/' :: r) hE (by omega)
        have hy := ih.2 r hC (by omega)
        split
        · rename_i heq
          rw [ht] at heq
          simp only [List.cons_append, List.cons.injEq, true_and] at heq
          exact absurd heq.1 hc
        · rw [hx]
          dsimp only
          rw [hy]
          rfl

theorem scan_sound (f : Nat) :
    (∀ {e : Elem} {s r : Str}, scanElem f s = some (e, r) → ∃ t, s = t ++ r ∧ ElemText e t) ∧
    (∀ {es : List Elem} {s r : Str}, scanContent f s = some (es, r) → ∃ u, s = u ++ '<' :: '/' :: r ∧ ContentText es u) := by
  induction f with
  | zero => exact ⟨fun h => by simp [scanElem] at h, fun h => by simp [scanContent] at h⟩
  | succ f ih =>
    constructor
    · intro e s r h
      rw [scanElem.eq_def] at h
      dsimp only at h
      split at h
      · rename_i s
        split at h
        · cases h
        rename_i name s1 hn
        obtain ⟨hN, rfl, _⟩ := scanName_sound hn
        split at h
        · cases h
        rename_i as s2 ha
        obtain ⟨t, w, rfl, hA, hw, _⟩ := scanAttrs_sound ha
        split at h
        · rename_i hd
          split at h
          · cases h
            exact ⟨_, by simp, .empty hN hd hA hw⟩
          · rename_i s3
            split at h
            · cases h
            rename_i kids s4 hc
            obtain ⟨u, rfl, hC⟩ := ih.2 hc
            split at h
            · cases h
            rename_i name' s5 hn'
            obtain ⟨_, rfl, _⟩ := scanName_sound hn'
            obtain ⟨w2, hw2, e2⟩ := take_drop_blank s5
            split at h
            · rename_i s6 hs6
              split at h
              · rename_i hnn
                cases h
                subst hnn
                refine ⟨_, ?_, .full hN hd hA hw hC hw2⟩
                rw [e2, hs6]
                simp
              · cases h
            · cases h
          · cases h
        · cases h
      · cases h
    · intro es s r h
      rw [scanContent] at h
      obtain ⟨w, hw, e⟩ := take_drop_blank s
      split at h
      · rename_i s1 hs
        cases h
        exact ⟨w, by rw [e, hs], .nil hw⟩
      · split at h
        · cases h
        rename_i el s2 hel
        obtain ⟨t, ht, hE⟩ := ih.1 hel
        obtain ⟨⟨es', r'⟩, h1, h2⟩ := Option.map_eq_some_iff.1 h
        simp only [Prod.mk.injEq] at h2
        obtain ⟨rfl, rfl⟩ := h2
        obtain ⟨u, rfl, hC⟩ := ih.2 h1
        refine ⟨_, ?_, .cons hw hE hC⟩
        rw [e, ht]
        simp

/-! ### documents -/

theorem afterDecl_complete {t r : Str} (h : ¬ "?>".toList <:+: (t ++ "?".toList)) : afterDecl (t ++ '?' :: '>' :: r) = some r := by
  induction t with
  | nil => simp [afterDecl]
  | cons c t ih =>
    rw [List.cons_append, afterDecl, if_neg, ih]
    · intro hi
      exact h (hi.trans ⟨[c], [], by simp⟩)
    · rintro ⟨rfl, hh⟩
      cases t with
      | nil => simp at hh
      | cons d t =>
        simp only [List.cons_append, List.head?_cons, Option.some.injEq] at hh
        subst hh
        exact h ⟨[], t ++ ['?'], by simp⟩

theorem afterDecl_sound {s r : Str} (h : afterDecl s = some r) :
    ∃ t, s = t ++ '?' :: '>' :: r ∧ ¬ "?>".toList <:+: (t ++ "?".toList) := by
  induction s with
  | nil => simp [afterDecl] at h
  | cons c s ih =>
    rw [afterDecl] at h
    split at h
    · rename_i hc
      obtain ⟨rfl, hh⟩ := hc
      cases s with
      | nil => simp at hh
      | cons d s =>
        simp only [List.head?_cons, Option.some.injEq] at hh
        subst hh
        cases h
        refine ⟨[], by simp, ?_⟩
        rintro ⟨a, b, hab⟩
        have := congrArg List.length hab
        simp at this
        omega
    · rename_i hc
      obtain ⟨t, rfl, ht⟩ := ih h
      refine ⟨c :: t, by simp, ?_⟩
      rintro ⟨a, b, hab⟩
      cases a with
      | nil =>
        rw [show "?>".toList = ['?', '>'] from rfl, show "?".toList = ['?'] from rfl] at hab
        simp at hab
        obtain ⟨rfl, hab⟩ := hab
        refine hc ⟨rfl, ?_⟩
        cases t with
        | nil => simp at hab
        | cons d t =>
          simp at hab
          simp [← hab.1]
      | cons a0 a =>
        simp at hab
        exact ht ⟨a, b, by simpa using hab.2⟩

theorem elem_not_space {e : Elem} {t r : Str} (h : ElemText e t) : (t ++ r).head?.all (fun c => !xmlSpace c) = true := by
  obtain ⟨c, t', rfl, _⟩ := elem_head h
  simp; decide

theorem stripDecl_plain {w t r : Str} {e : Elem} (hw : Blank w) (h : ElemText e t) : stripDecl (w ++ t ++ r) = some (w ++ t ++ r) := by
  obtain ⟨c, t', rfl, _, hc⟩ := elem_head h
  unfold stripDecl
  split
  · rename_i heq
    cases w with
    | nil =>
      simp only [List.nil_append, List.cons_append, List.cons.injEq, true_and] at heq
      exact absurd heq.1 hc
    | cons b w =>
      simp only [List.cons_append, List.cons.injEq] at heq
      have := hw b (by simp)
      rw [heq.1] at this
      exact absurd this (by decide)
  · rfl

theorem parse_iff (t : Str) (e : Elem) : xmlParse t = some e ↔ DocText e t := by
  constructor
  · intro h
    unfold xmlParse at h
    split at h
    · cases h
    rename_i s hs
    split at h
    · rename_i e' s' he
      split at h
      · rename_i hb
        cases h
        obtain ⟨x, hx, hE⟩ := (scan_sound _).1 he
        obtain ⟨w, hw, ew⟩ := take_drop_blank s
        rw [hx] at ew
        unfold stripDecl at hs
        split at hs
        · rename_i c s0
          split at hs
          · rename_i hc
            obtain ⟨t, rfl, hd⟩ := afterDecl_sound hs
            refine ⟨"<?xml".toList ++ c :: t ++ "?>".toList, w, x, s', Or.inr ⟨c, t, (xmlSpace_iff c).1 hc, hd, rfl⟩, hw, hE, blank_all.2 hb, ?_⟩
            rw [ew]
            simp
          · cases hs
        · cases hs
          exact ⟨[], w, x, s', Or.inl rfl, hw, hE, blank_all.2 hb, by rw [ew]; simp⟩
      · cases h
    · cases h
  · rintro ⟨decl, w, x, w2, hd, hw, hE, hw2, rfl⟩
    have key : stripDecl (decl ++ w ++ x ++ w2) = some (w ++ x ++ w2) := by
      rcases hd with rfl | ⟨c, t, hc, ht, rfl⟩
      · exact stripDecl_plain hw hE
      · have e : "<?xml".toList ++ c :: t ++ "?>".toList ++ w ++ x ++ w2 =
            '<' :: '?' :: 'x' :: 'm' :: 'l' :: c :: (t ++ '?' :: '>' :: (w ++ x ++ w2)) := by simp
        rw [e]
        unfold stripDecl
        show (if xmlSpace c = true then afterDecl (t ++ '?' :: '>' :: (w ++ x ++ w2)) else none) = _
        rw [if_pos (space_blank hc), afterDecl_complete ht]
    unfold xmlParse
    rw [key]
    dsimp only
    rw [List.append_assoc w, drop_blank hw (elem_not_space hE), (scan_complete _).1 w2 hE (by simp; omega)]
    dsimp only
    rw [if_pos (blank_all.1 hw2)]

/-! ### writing -/

theorem decDigit_ofNat : ∀ d : Fin 10, RefDecDigit (Char.ofNat (48 + d.val)) d.val := by
  unfold RefDecDigit
  decide +kernel

theorem natDigits_of (n : Nat) : DigitsOf 10 RefDecDigit (natDigits n) n := by
  induction n using Nat.strongRecOn with
  | _ n ih =>
    by_cases h : n < 10
    · rw [natDigits_lt h]
      exact .one (decDigit_ofNat ⟨n, h⟩)
    · rw [natDigits_ge h]
      have := DigitsOf.more (base := 10) (digit := RefDecDigit) (ih (n / 10) (by omega)) (decDigit_ofNat ⟨n % 10, Nat.mod_lt _ (by omega)⟩)
      rwa [show n / 10 * 10 + (⟨n % 10, Nat.mod_lt _ (by omega)⟩ : Fin 10).val = n from by dsimp only; omega] at this

theorem escape_value {c : Char} (hc : DocChar c.toNat) {v t : Str} (h : ValueText '"' v t) :
    ValueText '"' (c :: v) (xmlEscape c ++ t) := by
  unfold xmlEscape
  by_cases h1 : c = '&'
  · subst h1; rw [if_pos rfl]; exact .ref .amp h
  rw [if_neg h1]
  by_cases h2 : c = '<'
  · subst h2; rw [if_pos rfl]; exact .ref .lt h
  rw [if_neg h2]
  by_cases h3 : c = '>'
  · subst h3; rw [if_pos rfl]; exact .ref .gt h
  rw [if_neg h3]
  by_cases h4 : c = '"'
  · subst h4; rw [if_pos rfl]; exact .ref .quot h
  rw [if_neg h4]
  by_cases h5 : c = '\r'
  · subst h5; rw [if_pos rfl]; exact .ref (.dec (natDigits_of 13) hc) h
  rw [if_neg h5]
  by_cases h6 : c = '\n'
  · subst h6; rw [if_pos rfl]; exact .ref (.dec (natDigits_of 10) hc) h
  rw [if_neg h6]
  by_cases h7 : c = '\t'
  · subst h7; rw [if_pos rfl]
    exact .ref (.dec (ds := ['0', '9']) (DigitsOf.more (.one (decDigit_ofNat 0)) (decDigit_ofNat 9)) hc) h
  rw [if_neg h7]
  by_cases h8 : c.toNat < 128
  · rw [if_pos h8]
    by_cases h9 : c = ' '
    · subst h9
      exact .blank ((xmlSpace_iff ' ').1 (by decide)) (by rintro ⟨hx, _⟩; exact absurd hx (by decide)) h
    · refine .char h4 h2 h1 ?_ hc h
      intro hb
      rcases hb c (by simp) with hx | hx | hx | hx <;> contradiction
  · rw [if_neg h8]
    have := ValueText.ref (q := '"') (.dec (natDigits_of c.toNat) hc) h
    simpa using this

theorem escape_values {v : Str} (hv : ∀ c ∈ v, DocChar c.toNat) : ValueText '"' v (v.flatMap xmlEscape) := by
  induction v with
  | nil => exact .nil
  | cons c v ih =>
    rw [List.flatMap_cons]
    exact escape_value (hv c (by simp)) (ih (fun x hx => hv x (by simp [hx])))

theorem attrs_text {as : List (Str × Str)} (h : ∀ a ∈ as, IsName a.1 ∧ ∀ c ∈ a.2, DocChar c.toNat) :
    AttrsText as (as.flatMap (fun a => ' ' :: a.1 ++ '=' :: '"' :: a.2.flatMap xmlEscape ++ ['"'])) := by
  induction as with
  | nil => exact .nil
  | cons a as ih =>
    rw [List.flatMap_cons]
    have hn := h a (by simp)
    have := AttrsText.cons (w := [' ']) (w1 := []) (w2 := []) (q := '"') (by intro c hc; simp at hc; simp [hc]) (by simp) hn.1
      (by intro c hc; simp at hc) (by intro c hc; simp at hc) (Or.inl rfl) (escape_values hn.2) (ih (fun x hx => h x (by simp [hx])))
    simpa using this

theorem written_elem {tag : Str} {as : List (Str × Str)} (ht : IsName tag) (hd : (as.map Prod.fst).Nodup)
    (h : ∀ a ∈ as, IsName a.1 ∧ ∀ c ∈ a.2, DocChar c.toNat) : ElemText (.mk tag as []) (xmlText tag as) := by
  unfold xmlText
  have := ElemText.empty (w := [' ']) ht hd (attrs_text h) (by intro c hc; simp at hc; simp [hc])
  simpa using this

theorem name_ascii {n : Str} (h : IsName n) : ∀ c ∈ n, c.toNat < 128 := by
  have q : ∀ a b c : Char, b.toNat < 128 → (a ≤ c ∧ c ≤ b) → c.toNat < 128 := by
    intro a b c hb hc
    have := (char_between a b c).1 hc
    omega
  obtain ⟨c, t, rfl, h1, h2⟩ := h
  intro x hx
  rcases List.mem_cons.1 hx with rfl | hx
  · rcases h1 with h | h | rfl
    · exact q _ _ _ (by decide) h
    · exact q _ _ _ (by decide) h
    · decide
  · rcases h2 x hx with h | h | h | rfl | rfl | rfl
    · exact q _ _ _ (by decide) h
    · exact q _ _ _ (by decide) h
    · exact q _ _ _ (by decide) h
    · decide
    · decide
    · decide

theorem escape_ascii (c : Char) : ∀ x ∈ xmlEscape c, x.toNat < 128 := by
  intro x hx
  unfold xmlEscape at hx
  have key : ∀ l : Str, l.all (fun x => decide (x.toNat < 128)) = true → x ∈ l → x.toNat < 128 := by
    intro l hl hm
    simpa using List.all_eq_true.1 hl x hm
  repeat' split at hx
  all_goals first
    | exact key _ (by decide) hx
    | (rename_i h; rw [List.mem_singleton] at hx; rw [hx]; exact h)
    | skip
  rcases List.mem_append.1 hx with hx | hx
  · rcases List.mem_cons.1 hx with rfl | hx
    · decide
    · rcases List.mem_cons.1 hx with rfl | hx
      · decide
      · have := natDigits_all _ x hx
        simp only [isDigit, Bool.and_eq_true, decide_eq_true_eq] at this
        have := (char_between _ _ _).1 this
        rw [show '9'.toNat = 57 from rfl] at this
        omega
  · rw [List.mem_singleton] at hx; subst hx; decide

theorem written_ascii {tag : Str} {as : List (Str × Str)} (ht : IsName tag) (h : ∀ a ∈ as, IsName a.1) :
    ∀ c ∈ xmlText tag as, c.toNat < 128 := by
  intro c hc
  unfold xmlText at hc
  rcases List.mem_append.1 hc with hc | hc
  · rcases List.mem_append.1 hc with hc | hc
    · rcases List.mem_cons.1 hc with rfl | hc
      · decide
      · exact name_ascii ht c hc
    · obtain ⟨a, ha, hc⟩ := List.mem_flatMap.1 hc
      rcases List.mem_append.1 hc with hc | hc
      · rcases List.mem_append.1 hc with hc | hc
        · rcases List.mem_cons.1 hc with rfl | hc
          · decide
          · exact name_ascii (h a ha) c hc
        · rcases List.mem_cons.1 hc with rfl | hc
          · decide
          · rcases List.mem_cons.1 hc with rfl | hc
            · decide
            · obtain ⟨x, _, hx⟩ := List.mem_flatMap.1 hc
              exact escape_ascii x c hx
      · rw [List.mem_singleton] at hc; subst hc; decide
  · have : ∀ c ∈ " />".toList, c.toNat < 128 := by decide
    exact this c hc

/-! ### what elements are made of -/

/-- names and characters of an element and of everything in it -/
inductive Clean : Elem → Prop
  | mk {n as kids} : IsName n → (as.map Prod.fst).Nodup → (∀ a ∈ as, IsName a.1 ∧ ∀ c ∈ a.2, DocChar c.toNat) →
      (∀ k ∈ kids, Clean k) → Clean (.mk n as kids)

theorem docChar_ref {c : Char} {r : Str} (h : RefText c r) : DocChar c.toNat := by
  cases h with
  | dec _ h => exact h
  | hex _ h => exact h
  | _ => exact (docChar_iff _).1 (by decide)

theorem value_chars {q : Char} {v t : Str} (h : ValueText q v t) : ∀ c ∈ v, DocChar c.toNat := by
  induction h with
  | nil => simp
  | char _ _ _ _ h _ ih => intro x hx; rcases List.mem_cons.1 hx with rfl | hx; exacts [h, ih x hx]
  | blank _ _ _ ih => intro x hx; rcases List.mem_cons.1 hx with rfl | hx; exacts [(docChar_iff _).1 (by decide), ih x hx]
  | newline _ ih => intro x hx; rcases List.mem_cons.1 hx with rfl | hx; exacts [(docChar_iff _).1 (by decide), ih x hx]
  | ref h _ ih => intro x hx; rcases List.mem_cons.1 hx with rfl | hx; exacts [docChar_ref h, ih x hx]

theorem attrs_clean {as : List (Str × Str)} {t : Str} (h : AttrsText as t) : ∀ a ∈ as, IsName a.1 ∧ ∀ c ∈ a.2, DocChar c.toNat := by
  induction h with
  | nil => simp
  | cons _ _ hn _ _ _ hv _ ih =>
    intro a ha
    rcases List.mem_cons.1 ha with rfl | ha
    · exact ⟨hn, value_chars hv⟩
    · exact ih a ha

theorem clean_len (k : Nat) :
    (∀ {e : Elem} {t : Str}, ElemText e t → t.length ≤ k → Clean e) ∧
    (∀ {es : List Elem} {u : Str}, ContentText es u → u.length < k → ∀ e ∈ es, Clean e) := by
  induction k with
  | zero =>
    refine ⟨fun h hk => ?_, fun _ hk => absurd hk (by omega)⟩
    obtain ⟨c, t', rfl, _⟩ := elem_head h
    simp at hk
  | succ k ih =>
    constructor
    · intro e t h hk
      cases h with
      | empty hn hd hA hw => exact .mk hn hd (attrs_clean hA) (by simp)
      | full hn hd hA hw hC hw2 => exact .mk hn hd (attrs_clean hA) (ih.2 hC (by simp at hk; omega))
    · intro es u h hk
      cases h with
      | nil _ => simp
      | cons hw hE hC =>
        rename_i w e t es u
        obtain ⟨c, t', ht, _⟩ := elem_head hE
        have : 2 ≤ t.length := by rw [ht]; simp
        intro x hx
        rcases List.mem_cons.1 hx with rfl | hx
        · exact ih.1 hE (by simp at hk; omega)
        · exact ih.2 hC (by simp at hk; omega) x hx

theorem elem_clean {e : Elem} {t : Str} (h : ElemText e t) : Clean e := (clean_len t.length).1 h (Nat.le_refl _)

end Verif.Proofs
