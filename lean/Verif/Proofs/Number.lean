import Verif.Proofs.Fine
import Verif.Proofs.Tags
import Verif.Spec.Number
import Mathlib.Tactic.FieldSimp
import Mathlib.Tactic.Ring
import Mathlib.Tactic.NormNum
import Mathlib.Tactic.Positivity

/-! Numbers of the state stand for exact rational numbers. -/
namespace Verif.Proofs
open Verif.Py Verif.Model Verif.Spec

theorem worth_eq (n : Num) : worth n = (n.num : ℚ) / 10 ^ n.scale := by
  cases n <;> simp [worth, Num.num, Num.scale]

theorem worth_norm (k : Nat) (m : Int) : worth (Num.norm m k) = (m : ℚ) / 10 ^ k := by
  induction k generalizing m with
  | zero => simp [Num.norm, worth]
  | succ k ih =>
    rw [Num.norm]
    split
    · rename_i h
      rw [ih]
      have e : m = 10 * (m / 10) := by omega
      generalize m / 10 = q at e
      subst e
      push_cast
      field_simp
      try ring
    · rfl

theorem worth_add (a b : Num) : worth (a.add b) = worth a + worth b := by
  rw [Num.add, worth_norm, worth_eq a, worth_eq b]
  push_cast
  rw [pow_add]
  field_simp

theorem worth_sub (a b : Num) : worth (a.sub b) = worth a - worth b := by
  rw [Num.sub, worth_norm, worth_eq a, worth_eq b]
  push_cast
  rw [pow_add]
  field_simp

theorem cross {a b : Int} {k l : Nat} (h : (a : ℚ) / 10 ^ k = (b : ℚ) / 10 ^ l) : a * 10 ^ l = b * 10 ^ k := by
  field_simp at h
  rw [mul_comm] at h
  have h2 : (a : ℚ) * 10 ^ l = b * 10 ^ k := by rw [mul_comm, h, mul_comm]
  exact_mod_cast h2

/-- a number in normal form is determined by its worth -/
theorem worth_inj {a b : Num} (ha : NumOk a) (hb : NumOk b) (h : worth a = worth b) : a = b := by
  have key : ∀ (m n : Int) (k d : Nat), m * 10 ^ (k + d) = n * 10 ^ k → n = m * 10 ^ d := by
    intro m n k d e
    rw [pow_add] at e
    have hk : (10 : Int) ^ k ≠ 0 := by positivity
    have : n * 10 ^ k = m * 10 ^ d * 10 ^ k := by rw [← e]; ring
    exact mul_right_cancel₀ hk this
  have red : ∀ (m n : Int) (k l : Nat), m * 10 ^ l = n * 10 ^ k → k ≤ l → (l ≠ 0 → n % 10 ≠ 0) → k = l ∧ m = n := by
    intro m n k l e hkl hn
    obtain ⟨d, rfl⟩ := Nat.exists_eq_add_of_le hkl
    have := key m n k d e
    cases d with
    | zero => simp_all
    | succ d =>
      exfalso
      refine hn (by omega) ?_
      rw [this, pow_succ, ← mul_assoc]
      exact Int.mul_emod_left _ _
  rw [worth_eq, worth_eq] at h
  have c := cross h
  have hA : a.scale ≠ 0 → a.num % 10 ≠ 0 := by
    cases a with
    | int n => intro h; exact absurd rfl h
    | dec m k => intro _; exact ha.2
  have hB : b.scale ≠ 0 → b.num % 10 ≠ 0 := by
    cases b with
    | int n => intro h; exact absurd rfl h
    | dec m k => intro _; exact hb.2
  have hs : a.scale = b.scale ∧ a.num = b.num := by
    rcases Nat.le_total a.scale b.scale with hle | hle
    · exact red _ _ _ _ c hle hB
    · obtain ⟨x, y⟩ := red _ _ _ _ c.symm hle hA
      exact ⟨x.symm, y.symm⟩
  cases a with
  | int n =>
    cases b with
    | int m => rw [show n = m from hs.2]
    | dec m k =>
      have h1 := hs.1
      have h2 := hb.1
      simp only [Num.scale] at h1
      omega
  | dec n j =>
    cases b with
    | int m =>
      have h1 := hs.1
      have h2 := ha.1
      simp only [Num.scale] at h1
      omega
    | dec m k =>
      rw [show n = m from hs.2, show j = k from hs.1]

/-- a number in normal form is whole exactly if it is held as a whole number -/
theorem worth_int {a : Num} (ha : NumOk a) (z : Int) : worth a = z ↔ a = .int z := by
  constructor
  · intro h
    exact worth_inj ha (b := .int z) trivial h
  · rintro rfl; rfl

/-! reading -/

theorem isDigit_iff' (c : Char) : isDigit c = true ↔ '0' ≤ c ∧ c ≤ '9' := by
  simp [isDigit]

/-- what the text after the sign gives -/
def body (neg : Bool) (s : Str) : Except PyErr Num :=
  match s.dropWhile isDigit with
  | [] => if s.takeWhile isDigit = [] then .error .valueError else
      .ok (.int (if neg then -(digitsVal 0 (s.takeWhile isDigit)) else digitsVal 0 (s.takeWhile isDigit)))
  | c :: frac =>
    if c = '.' ∧ frac.all isDigit ∧ (s.takeWhile isDigit ≠ [] ∨ frac ≠ []) then
      .ok (Num.norm (if neg then -(digitsVal 0 (s.takeWhile isDigit ++ frac)) else digitsVal 0 (s.takeWhile isDigit ++ frac)) frac.length)
    else .error .valueError

theorem parsePlain_body (s : Str) : parsePlain s = body (signOf s).1 (signOf s).2 := rfl

theorem worth_signed (neg : Bool) (z : Int) (k : Nat) :
    worth (Num.norm (if neg then -z else z) k) = (if neg then -1 else 1 : ℚ) * ((z : ℚ) / 10 ^ k) := by
  rw [worth_norm]
  cases neg <;> simp [neg_div]

theorem body_sound {neg : Bool} {s : Str} {n : Num} (h : body neg s = .ok n) :
    Decimal s ((if neg then -1 else 1 : ℚ) * worth n) := by
  have hsplit := List.takeWhile_append_dropWhile (p := isDigit) (l := s)
  have hd : ∀ d ∈ s.takeWhile isDigit, '0' ≤ d ∧ d ≤ '9' :=
    fun d hd => (isDigit_iff' d).mp (List.all_eq_true.mp List.all_takeWhile d hd)
  unfold body at h
  split at h
  · rename_i he
    rw [he, List.append_nil] at hsplit
    split at h
    · cases h
    · rename_i hne
      cases h
      left
      rw [hsplit] at hne hd ⊢
      refine ⟨⟨hne, hd⟩, ?_⟩
      have := digitsVal_eq _ hd
      rw [this]
      cases neg <;> simp [worth]
  · rename_i c frac he
    split at h
    · rename_i hc
      obtain ⟨rfl, hf, hne⟩ := hc
      cases h
      right
      have hall : ∀ d ∈ s.takeWhile isDigit ++ frac, '0' ≤ d ∧ d ≤ '9' := by
        intro d hm
        rcases List.mem_append.mp hm with hm | hm
        · exact hd d hm
        · exact (isDigit_iff' d).mp (List.all_eq_true.mp hf d hm)
      refine ⟨s.takeWhile isDigit, frac, ?_, ⟨?_, hall⟩, ?_⟩
      · rw [← he]; exact hsplit.symm
      · intro e
        obtain ⟨h1, h2⟩ := List.append_eq_nil_iff.mp e
        rcases hne with h | h
        · exact h h1
        · exact h h2
      · rw [worth_signed, digitsVal_eq _ hall]
        cases neg <;> simp
    · cases h

theorem drop_digits {a rest : Str} (ha : ∀ d ∈ a, isDigit d = true) (hr : ∀ c r, rest = c :: r → isDigit c = false) :
    (a ++ rest).takeWhile isDigit = a ∧ (a ++ rest).dropWhile isDigit = rest := by
  induction a with
  | nil =>
    cases rest with
    | nil => exact ⟨rfl, rfl⟩
    | cons c r =>
      have := hr c r rfl
      simp [this]
  | cons d a ih =>
    obtain ⟨h1, h2⟩ := ih (fun x hx => ha x (List.mem_cons_of_mem _ hx))
    have := ha d (by simp)
    simp [this, h1, h2]

theorem body_complete {neg : Bool} {s : Str} {q : ℚ} (h : Decimal s q) :
    ∃ n, body neg s = .ok n ∧ worth n = (if neg then -1 else 1 : ℚ) * q := by
  rcases h with ⟨⟨hne, hd⟩, rfl⟩ | ⟨a, b, rfl, ⟨hne, hd⟩, rfl⟩
  · obtain ⟨h1, h2⟩ := drop_digits (a := s) (rest := []) (fun d hm => (isDigit_iff' d).mpr (hd d hm)) (by intro c r h; cases h)
    rw [List.append_nil] at h1 h2
    refine ⟨.int (if neg then -(digitsVal 0 s) else digitsVal 0 s), ?_, ?_⟩
    · unfold body
      rw [h2, h1]
      simp [hne]
    · rw [digitsVal_eq _ hd]
      cases neg <;> simp [worth]
  · have hA : ∀ d ∈ a, isDigit d = true := fun d hm => (isDigit_iff' d).mpr (hd d (List.mem_append_left _ hm))
    have hB : ∀ d ∈ b, isDigit d = true := fun d hm => (isDigit_iff' d).mpr (hd d (List.mem_append_right _ hm))
    obtain ⟨h1, h2⟩ := drop_digits (a := a) (rest := '.' :: b) hA (by intro c r h; cases h; rfl)
    refine ⟨Num.norm (if neg then -(digitsVal 0 (a ++ b)) else digitsVal 0 (a ++ b)) b.length, ?_, ?_⟩
    · unfold body
      rw [h2, h1]
      have hc : a ≠ [] ∨ b ≠ [] := by
        by_cases h : a = []
        · right; intro hb; exact hne (by rw [h, hb]; rfl)
        · exact .inl h
      show (if '.' = '.' ∧ b.all isDigit = true ∧ (a ≠ [] ∨ b ≠ []) then _ else _) = _
      rw [if_pos ⟨rfl, List.all_eq_true.mpr hB, hc⟩]
    · rw [worth_signed, digitsVal_eq _ hd]
      simp

theorem decimal_first {c : Char} {t : Str} {q : ℚ} (h : Decimal (c :: t) q) : c ≠ '-' ∧ c ≠ '+' := by
  have hdig : '0' ≤ c ∧ c ≤ '9' ∨ c = '.' := by
    rcases h with ⟨⟨_, hd⟩, _⟩ | ⟨a, b, e, ⟨_, hd⟩, _⟩
    · exact .inl (hd c (by simp))
    · cases a with
      | nil => simp at e; exact .inr e.1
      | cons x a =>
        simp at e
        exact .inl (hd c (by simp [e.1]))
  rcases hdig with h | rfl
  · constructor <;> rintro rfl <;> exact absurd h (by decide)
  · decide

/-- a text is read as a number worth `q` exactly if it writes `q` -/
theorem parsePlain_iff (s : Str) (q : ℚ) : (∃ n, parsePlain s = .ok n ∧ worth n = q) ↔ WritesNum s q := by
  rw [parsePlain_body]
  constructor
  · rintro ⟨n, h, rfl⟩
    have hb := body_sound h
    cases s with
    | nil => left; simpa [signOf] using hb
    | cons c t =>
      rw [signOf] at hb
      by_cases h1 : c = '-'
      · rw [if_pos h1] at hb
        right; right
        exact ⟨t, by rw [h1], by simpa using hb⟩
      · rw [if_neg h1] at hb
        by_cases h2 : c = '+'
        · rw [if_pos h2] at hb
          right; left
          exact ⟨t, by rw [h2], by simpa using hb⟩
        · rw [if_neg h2] at hb
          left
          simpa using hb
  · rintro (h | ⟨t, rfl, h⟩ | ⟨t, rfl, h⟩)
    · have hs : signOf s = (false, s) := by
        cases s with
        | nil => rfl
        | cons c t =>
          obtain ⟨h1, h2⟩ := decimal_first h
          rw [signOf, if_neg h1, if_neg h2]
      rw [hs]
      obtain ⟨n, h1, h2⟩ := body_complete (neg := false) h
      exact ⟨n, h1, by simpa using h2⟩
    · obtain ⟨n, h1, h2⟩ := body_complete (neg := false) h
      exact ⟨n, h1, by simpa using h2⟩
    · obtain ⟨n, h1, h2⟩ := body_complete (neg := true) h
      exact ⟨n, h1, by simpa using h2⟩

theorem parsePlain_err {s : Str} {x : PyErr} (h : parsePlain s = .error x) : x = .valueError := by
  unfold parsePlain at h
  simp only at h
  split at h
  · split at h
    · cases h; rfl
    · cases h
  · split at h
    · cases h
    · cases h; rfl

end Verif.Proofs
