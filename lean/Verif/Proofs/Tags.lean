import Verif.Spec.Tags
import Verif.Proofs.Moves

namespace Verif.Proofs
open Verif.Py Verif.Model Verif.Spec

theorem digitsVal_decimal (ds : Str) (hd : ∀ d ∈ ds, '0' ≤ d ∧ d ≤ '9') (a : Nat) :
    digitsVal (a : Int) ds = (ds.foldl (fun a d => 10 * a + (d.toNat - '0'.toNat)) a : Nat) := by
  induction ds generalizing a with
  | nil => rfl
  | cons d ds ih =>
    simp only [digitsVal, List.foldl_cons]
    have h1 := (hd d (by simp)).1
    have h2 : 48 ≤ d.toNat := by
      have : '0'.toNat ≤ d.toNat := h1
      exact this
    rw [← ih (fun x hx => hd x (by simp [hx]))]
    congr 1
    unfold digitVal
    have : '0'.toNat = 48 := rfl
    omega

theorem digitsVal_eq (ds : Str) (hd : ∀ d ∈ ds, '0' ≤ d ∧ d ≤ '9') : digitsVal 0 ds = (decimal ds : Int) :=
  digitsVal_decimal ds hd 0

theorem split_digits (ds rest : Str) (hd : ∀ d ∈ ds, '0' ≤ d ∧ d ≤ '9')
    (hr : ∀ d r, rest = d :: r → ¬ ('0' ≤ d ∧ d ≤ '9')) :
    (ds ++ rest).takeWhile isDigit = ds ∧ (ds ++ rest).dropWhile isDigit = rest := by
  induction ds with
  | nil =>
    cases rest with
    | nil => exact ⟨rfl, rfl⟩
    | cons d r =>
      have : isDigit d = false := decide_eq_false (hr d r rfl)
      simp [this]
  | cons d ds ih =>
    have h1 : isDigit d = true := decide_eq_true (hd d (by simp))
    obtain ⟨a, b⟩ := ih (fun x hx => hd x (by simp [hx]))
    simp [h1, a, b]

theorem takeWhile_isDigit (t : Str) : ∀ d ∈ t.takeWhile isDigit, '0' ≤ d ∧ d ≤ '9' := by
  induction t with
  | nil => simp
  | cons c t ih =>
    intro d hd
    rw [List.takeWhile_cons] at hd
    split at hd
    · rename_i h
      rcases List.mem_cons.1 hd with rfl | hd
      · exact of_decide_eq_true h
      · exact ih d hd
    · simp at hd

theorem dropWhile_head (t : Str) : ∀ d r, t.dropWhile isDigit = d :: r → ¬ ('0' ≤ d ∧ d ≤ '9') := by
  induction t with
  | nil => simp
  | cons c t ih =>
    intro d r hd
    rw [List.dropWhile_cons] at hd
    split at hd
    · exact ih d r hd
    · rename_i h
      simp only [List.cons.injEq] at hd
      rw [← hd.1]
      intro hc
      exact h (decide_eq_true hc)

theorem take_drop_digits (t : Str) : t = t.takeWhile isDigit ++ t.dropWhile isDigit := by
  induction t with
  | nil => rfl
  | cons c t ih =>
    rw [List.takeWhile_cons, List.dropWhile_cons]
    split
    · simp [← ih]
    · rfl

theorem wholeNumber_iff (letters : String) (tag : Str) (c : Char) (n : Int) :
    wholeNumber letters.toList tag = some (c, n) ↔ ∃ k : Nat, n = k ∧ Numbered letters tag c k := by
  constructor
  · intro h
    cases tag with
    | nil => simp [wholeNumber] at h
    | cons d t =>
      simp only [wholeNumber] at h
      split at h
      · rename_i hm
        split at h
        · rename_i hc
          cases h
          have hdg := takeWhile_isDigit t
          refine ⟨_, digitsVal_eq _ hdg, hm, _, ⟨hc.1, hdg⟩, rfl, ?_⟩
          rcases hc.2 with e | e
          · left
            have := take_drop_digits t
            rw [e, List.append_nil] at this
            rw [← this]
          · right
            have := take_drop_digits t
            rw [e] at this
            rw [List.cons_append, ← this]
        · cases h
      · cases h
  · rintro ⟨k, rfl, hm, ds, ⟨h0, hd⟩, rfl, h⟩
    rcases h with rfl | rfl
    · have := split_digits ds [] hd (by simp)
      rw [List.append_nil] at this
      simp [wholeNumber, hm, this, h0, digitsVal_eq _ hd]
    · have := split_digits ds ['\n'] hd (by intro d r e; cases e; decide)
      simp [wholeNumber, hm, this, h0, digitsVal_eq _ hd]

theorem prefixNumber_iff (c : Char) (tag : Str) (n : Int) :
    prefixNumber c tag = some n ↔ ∃ k : Nat, n = k ∧ Begins c tag k := by
  constructor
  · intro h
    cases tag with
    | nil => simp [prefixNumber] at h
    | cons d t =>
      simp only [prefixNumber] at h
      split at h
      · rename_i hm
        subst hm
        split at h
        · cases h
        · rename_i hc
          cases h
          have hdg := takeWhile_isDigit t
          exact ⟨_, digitsVal_eq _ hdg, _, _, ⟨hc, hdg⟩, rfl, by rw [List.cons_append, ← take_drop_digits],
            dropWhile_head t⟩
      · cases h
  · rintro ⟨k, rfl, ds, rest, ⟨h0, hd⟩, rfl, rfl, hr⟩
    have := split_digits ds rest hd hr
    simp [prefixNumber, this, h0, digitsVal_eq _ hd]

theorem decimal_natDigits (k : Nat) : DigitText (natDigits k) ∧ decimal (natDigits k) = k := by
  have hd : ∀ d ∈ natDigits k, '0' ≤ d ∧ d ≤ '9' := fun d hd => of_decide_eq_true (natDigits_all k d hd)
  refine ⟨⟨natDigits_ne_nil k, hd⟩, ?_⟩
  have h1 := digitsVal_eq _ hd
  rw [digitsVal_natDigits] at h1
  omega

theorem numbered_natDigits {letters : String} {c : Char} (h : c ∈ letters.toList) (k : Nat) :
    Numbered letters (c :: natDigits k) c k :=
  ⟨h, _, (decimal_natDigits k).1, (decimal_natDigits k).2, .inl rfl⟩

theorem wholeNumber_none {letters : String} {tag : Str} (h : ∀ c n, ¬ Numbered letters tag c n) :
    wholeNumber letters.toList tag = none := by
  cases e : wholeNumber letters.toList tag with
  | none => rfl
  | some r =>
    obtain ⟨c, n⟩ := r
    obtain ⟨k, _, b⟩ := (wholeNumber_iff letters tag c n).1 e
    exact (h c k b).elim

/-- the tag of a draw or discard is a letter and at least one digit -/
theorem numbered_second {letters : String} {tag : Str} {c : Char} {n : Nat} (h : Numbered letters tag c n) :
    ∃ d r, tag = c :: d :: r ∧ '0' ≤ d ∧ d ≤ '9' := by
  obtain ⟨_, ds, ⟨h0, hd⟩, _, h⟩ := h
  cases ds with
  | nil => exact (h0 rfl).elim
  | cons d r =>
    rcases h with rfl | rfl
    · exact ⟨d, r, rfl, hd d (by simp)⟩
    · exact ⟨d, r ++ ['\n'], rfl, hd d (by simp)⟩

theorem numbered_not_named {letters : String} {tag : Str} {c : Char} {n : Nat} (h : Numbered letters tag c n) :
    ∀ s ∈ ["INIT", "N", "GO", "TAIKYOKU", "UN", "DORA", "REACH", "AGARI", "SHUFFLE", "BYE", "RYUUKYOKU"],
      tag ≠ s.toList := by
  obtain ⟨d, r, rfl, h1, h2⟩ := numbered_second h
  intro s hs e
  have : ∀ s ∈ ["INIT", "N", "GO", "TAIKYOKU", "UN", "DORA", "REACH", "AGARI", "SHUFFLE", "BYE", "RYUUKYOKU"],
      isDigit (s.toList.getD 1 ' ') = false := by decide
  have := this s hs
  rw [← e] at this
  exact absurd (show isDigit d = true from decide_eq_true ⟨h1, h2⟩) (by simpa using this)

end Verif.Proofs
