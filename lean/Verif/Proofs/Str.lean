import Verif.Py.Str

namespace Verif.Proofs
open Verif.Py Verif.Model

theorem natDigitsFuel_eq (f g n : Nat) (hf : n < f) (hg : n < g) : natDigitsFuel f n = natDigitsFuel g n := by
  induction f generalizing g n with
  | zero => omega
  | succ f ih =>
    cases g with
    | zero => omega
    | succ g =>
      simp only [natDigitsFuel]
      split
      · rfl
      · rw [ih g (n / 10) (by omega) (by omega)]

theorem natDigits_lt {n : Nat} (h : n < 10) : natDigits n = [Char.ofNat (48 + n)] := by
  simp [natDigits, natDigitsFuel, h]

theorem natDigits_ge {n : Nat} (h : ¬ n < 10) : natDigits n = natDigits (n / 10) ++ [Char.ofNat (48 + n % 10)] := by
  unfold natDigits
  rw [natDigitsFuel, if_neg h, natDigitsFuel_eq n (n / 10 + 1) (n / 10) (by omega) (by omega)]

/-- induction along the digits of a number -/
theorem digits_ind {P : Nat → Prop} (h1 : ∀ n, n < 10 → P n) (h2 : ∀ n, ¬ n < 10 → P (n / 10) → P n) (n : Nat) : P n := by
  induction n using Nat.strongRecOn with
  | _ n ih =>
    by_cases h : n < 10
    · exact h1 n h
    · exact h2 n h (ih _ (by omega))

theorem digitChar_isDigit : ∀ d : Fin 10, isDigit (Char.ofNat (48 + d.val)) = true := by decide
theorem digitChar_val : ∀ d : Fin 10, digitVal (Char.ofNat (48 + d.val)) = d.val := by decide

theorem natDigits_all (n : Nat) : ∀ c ∈ natDigits n, isDigit c = true := by
  induction n using digits_ind with
  | h1 n h => rw [natDigits_lt h]; intro c hc; simp at hc; subst hc; exact digitChar_isDigit ⟨n, h⟩
  | h2 n h ih =>
    rw [natDigits_ge h]
    intro c hc
    rcases List.mem_append.1 hc with h' | h'
    · exact ih c h'
    · simp at h'; subst h'; exact digitChar_isDigit ⟨n % 10, by omega⟩

theorem natDigits_ne_nil (n : Nat) : natDigits n ≠ [] := by
  by_cases h : n < 10
  · rw [natDigits_lt h]; simp
  · rw [natDigits_ge h]; simp

theorem digitsVal_append (a b : Str) (acc : Int) : digitsVal acc (a ++ b) = digitsVal (digitsVal acc a) b := by
  induction a generalizing acc with
  | nil => rfl
  | cons c a ih => exact ih _

theorem digitsVal_natDigits (n : Nat) : digitsVal 0 (natDigits n) = n := by
  induction n using digits_ind with
  | h1 n h => rw [natDigits_lt h]; simp [digitsVal, digitChar_val ⟨n, h⟩]
  | h2 n h ih =>
    rw [natDigits_ge h, digitsVal_append, ih]
    have := digitChar_val ⟨n % 10, by omega⟩
    simp only at this
    simp only [digitsVal, this]
    omega

theorem isDigit_ne {c d : Char} (h : isDigit c = true) (hd : isDigit d = false) : c ≠ d := by
  rintro rfl; rw [h] at hd; cases hd

theorem pyInt_plain {s : Str} {n : Int} (h : plainInt s = .ok n) : pyInt s = .ok n := by
  unfold pyInt
  rw [h]

theorem pyInt_digits {s : Str} (hne : s ≠ []) (h : ∀ c ∈ s, isDigit c = true) : pyInt s = .ok (digitsVal 0 s) := by
  apply pyInt_plain
  cases s with
  | nil => exact absurd rfl hne
  | cons c t =>
    have hc := h c (by simp)
    unfold plainInt
    simp only
    rw [if_neg (isDigit_ne hc (by decide)), if_neg (isDigit_ne hc (by decide)), if_pos (List.all_eq_true.2 h)]

theorem pyInt_natDigits (n : Nat) : pyInt (natDigits n) = .ok n := by
  rw [pyInt_digits (natDigits_ne_nil n) (natDigits_all n), digitsVal_natDigits]

theorem pyInt_pyStrInt (n : Int) : pyInt (pyStrInt n) = .ok n := by
  unfold pyStrInt
  split
  · rename_i h
    apply pyInt_plain
    unfold plainInt
    simp only [if_true]
    rw [if_pos ⟨natDigits_ne_nil _, List.all_eq_true.2 (natDigits_all _)⟩, digitsVal_natDigits]
    congr 1; omega
  · rename_i h
    rw [pyInt_natDigits]; congr 1; omega

theorem pyStrInt_ne_nil (n : Int) : pyStrInt n ≠ [] := by
  unfold pyStrInt; split
  · simp
  · exact natDigits_ne_nil _

/-- no character of `str(n)` is the given non-digit, non-minus character -/
theorem pyStrInt_not_mem (n : Int) (d : Char) (h1 : isDigit d = false) (h2 : d ≠ '-') : d ∉ pyStrInt n := by
  unfold pyStrInt
  split
  · intro h
    rcases List.mem_cons.1 h with h | h
    · exact h2 h
    · exact isDigit_ne (natDigits_all _ _ h) h1 rfl
  · intro h
    exact isDigit_ne (natDigits_all _ _ h) h1 rfl

theorem splitOn_ne_nil (sep : Char) (s : Str) : splitOn sep s ≠ [] := by
  induction s with
  | nil => simp [splitOn]
  | cons c s ih =>
    unfold splitOn
    split
    · simp
    · split
      · simp
      · simp

theorem splitOn_none {sep : Char} {s : Str} (h : sep ∉ s) : splitOn sep s = [s] := by
  induction s with
  | nil => rfl
  | cons c s ih =>
    simp only [List.mem_cons, not_or] at h
    unfold splitOn
    rw [if_neg (Ne.symm h.1), ih h.2]

theorem splitOn_append {sep : Char} {s : Str} (h : sep ∉ s) (r : Str) :
    splitOn sep (s ++ sep :: r) = s :: splitOn sep r := by
  induction s with
  | nil => simp [splitOn]
  | cons c s ih =>
    simp only [List.mem_cons, not_or] at h
    rw [List.cons_append, splitOn, if_neg (Ne.symm h.1), ih h.2]

theorem splitOn_join (sep : Char) (ps : List Str) (hne : ps ≠ []) (h : ∀ p ∈ ps, sep ∉ p) :
    splitOn sep (joinWith sep ps) = ps := by
  induction ps with
  | nil => exact absurd rfl hne
  | cons p ps ih =>
    cases ps with
    | nil => exact splitOn_none (h p (by simp))
    | cons q qs =>
      simp only [joinWith]
      rw [splitOn_append (h p (by simp)), ih (by simp) (fun x hx => h x (by simp [hx]))]

theorem takeWhile_append_stop (p : Char → Bool) (ds r : Str) (hd : ∀ d ∈ ds, p d = true)
    (hr : ∀ c, r.head? = some c → p c = false) : (ds ++ r).takeWhile p = ds ∧ (ds ++ r).dropWhile p = r := by
  induction ds with
  | nil =>
    cases r with
    | nil => simp
    | cons c r => have := hr c rfl; simp [this]
  | cons d ds ih =>
    have hd1 := hd d (by simp)
    have := ih (fun x hx => hd x (by simp [hx]))
    simp [hd1, this.1, this.2]

end Verif.Proofs
