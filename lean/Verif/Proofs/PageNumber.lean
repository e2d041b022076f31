import Verif.Proofs.PageFind
import Verif.Proofs.Number
import Verif.Proofs.Float
import Mathlib.Algebra.Order.Field.Rat
import Mathlib.Algebra.Order.Ring.Abs
import Mathlib.Tactic.Linarith

/-! Numbers with a fixed number of decimals, and base64. -/
namespace Verif.Proofs
open Verif.Py Verif.Model Verif.Spec Verif.Spec.Html

theorem decimal_snoc (s : Str) (c : Char) : decimal (s ++ [c]) = 10 * decimal s + (c.toNat - '0'.toNat) := by
  simp [decimal, List.foldl_append]

theorem lastDigits_length (d n : Nat) : (lastDigits d n).length = d := by
  induction d generalizing n with
  | zero => rfl
  | succ d ih => simp [lastDigits, ih]

theorem digit_char (k : Nat) (h : k < 10) : '0' ≤ Char.ofNat (48 + k) ∧ Char.ofNat (48 + k) ≤ '9' ∧ (Char.ofNat (48 + k)).toNat - '0'.toNat = k := by
  revert h
  revert k
  decide

theorem lastDigits_digits (d n : Nat) : ∀ c ∈ lastDigits d n, '0' ≤ c ∧ c ≤ '9' := by
  induction d generalizing n with
  | zero => simp [lastDigits]
  | succ d ih =>
    intro c hc
    simp only [lastDigits, List.mem_append, List.mem_cons, List.not_mem_nil, or_false] at hc
    rcases hc with h | rfl
    · exact ih _ c h
    · have := digit_char (n % 10) (by omega)
      exact ⟨this.1, this.2.1⟩

theorem decimal_fixed (d m : Nat) : decimal (natDigits (m / 10 ^ d) ++ lastDigits d m) = m := by
  induction d generalizing m with
  | zero => simp [lastDigits, (decimal_natDigits m).2]
  | succ d ih =>
    have e : m / 10 ^ (d + 1) = m / 10 / 10 ^ d := by rw [Nat.div_div_eq_div_mul, Nat.pow_succ, Nat.mul_comm]
    simp only [lastDigits]
    rw [← List.append_assoc, decimal_snoc, e, ih, (digit_char (m % 10) (by omega)).2.2]
    omega

/-- the digits shown by `fixedText` -/
def shownUnits (d : Nat) (n : Num) : Nat := roundHalfEven (n.float.num.natAbs * 10 ^ d) n.float.den

/-- the number written is the rounded one -/
theorem fixedText_writes (d : Nat) (n : Num) : WritesNum (fixedText d n)
    ((if n.num < 0 then -1 else 1) * ((shownUnits d n : ℕ) : ℚ) / 10 ^ d) := by
  unfold fixedText
  simp only
  rw [← shownUnits]
  generalize shownUnits d n = m
  have hd : Decimal (natDigits (m / 10 ^ d) ++ '.' :: lastDigits d m) ((m : ℚ) / 10 ^ d) := by
    refine Or.inr ⟨_, _, rfl, ⟨?_, ?_⟩, ?_⟩
    · intro e
      exact natDigits_ne_nil _ (List.append_eq_nil_iff.1 e).1
    · intro c hc
      rcases List.mem_append.1 hc with h | h
      · exact (decimal_natDigits _).1.2 c h
      · exact lastDigits_digits d m c h
    · rw [decimal_fixed, lastDigits_length]
  by_cases h : n.num < 0
  · simp only [if_pos h]
    refine Or.inr (Or.inr ⟨_, rfl, ?_⟩)
    have : -(-1 * (m : ℚ) / 10 ^ d) = (m : ℚ) / 10 ^ d := by ring
    rw [this]
    exact hd
  · simp only [if_neg h]
    refine Or.inl ?_
    rw [one_mul]
    exact hd

theorem float_eq (n : Num) : n.float = roundDouble (worth n) := by
  rw [worth_eq]
  unfold Num.float
  push_cast
  rfl

/-- the sign of the float is that of the number -/
theorem float_sign (n : Num) : (if n.num < 0 then -1 else 1 : ℚ) * ((n.float.num.natAbs : ℕ) : ℚ) / n.float.den = n.float := by
  have hs : n.num < 0 ↔ n.float.num < 0 := by
    rw [Rat.num_neg, float_eq, worth_eq]
    have pk : (0 : ℚ) < 10 ^ n.scale := by positivity
    constructor
    · intro h
      have h1 : (n.num : ℚ) < 0 := by exact_mod_cast h
      have h2 : 0 < -((n.num : ℚ) / 10 ^ n.scale) := by
        rw [← neg_div]
        exact div_pos (by linarith) pk
      have := roundDouble_pos h2
      rw [roundDouble_neg] at this
      linarith
    · intro h
      by_contra hc
      have h1 : (0 : ℚ) ≤ n.num := by exact_mod_cast (by omega : 0 ≤ n.num)
      have := roundDouble_mono (div_nonneg h1 pk.le)
      rw [roundDouble_zero] at this
      linarith
  have e : (n.float.num : ℚ) / n.float.den = n.float := Rat.num_div_den _
  by_cases h : n.num < 0
  · rw [if_pos h]
    have h' := hs.1 h
    have : ((n.float.num.natAbs : ℕ) : ℚ) = -(n.float.num : ℚ) := by
      have : ((n.float.num.natAbs : ℕ) : ℤ) = -n.float.num := by omega
      rw [← Int.cast_natCast, this, Int.cast_neg]
    rw [this, neg_one_mul, neg_neg]
    exact e
  · rw [if_neg h]
    have h' : ¬ n.float.num < 0 := fun x => h (hs.2 x)
    have : ((n.float.num.natAbs : ℕ) : ℚ) = (n.float.num : ℚ) := by
      have : ((n.float.num.natAbs : ℕ) : ℤ) = n.float.num := by omega
      rw [← Int.cast_natCast, this]
    rw [this, one_mul]
    exact e

/-- the number written differs from the float by at most half a unit of the last place -/
theorem shown_near (d : Nat) (n : Num) :
    |(if n.num < 0 then -1 else 1) * ((shownUnits d n : ℕ) : ℚ) / 10 ^ d - n.float| ≤ 1 / (2 * 10 ^ d) := by
  have h := (roundHalfEven_nearest (n.float.num.natAbs * 10 ^ d) n.float.den n.float.den_pos).1
  rw [← shownUnits] at h
  have pd : (0 : ℚ) < 10 ^ d := by positivity
  have hs : |(if n.num < 0 then (-1 : ℚ) else 1)| = 1 := by split <;> simp
  have e : (if n.num < 0 then -1 else 1) * ((shownUnits d n : ℕ) : ℚ) / 10 ^ d - n.float =
      (if n.num < 0 then -1 else 1) * (((shownUnits d n : ℕ) : ℚ) - ((n.float.num.natAbs * 10 ^ d : ℕ) : ℚ) / n.float.den) / 10 ^ d := by
    conv => lhs; rw [← float_sign n]
    push_cast
    field_simp
  rw [e, abs_div, abs_mul, hs, one_mul, abs_of_pos pd, div_le_div_iff₀ pd (by positivity)]
  calc _ ≤ 1 / 2 * (2 * (10 : ℚ) ^ d) := mul_le_mul_of_nonneg_right h (by positivity)
    _ = 1 * 10 ^ d := by ring

/-- the number written is at most half a unit of the last place off the float, and exact if the number has no more decimals
    and is not too large -/
theorem fixedText_near (d : Nat) (n : Num) : ∃ q, WritesNum (fixedText d n) q ∧ |q - n.float| ≤ 1 / (2 * 10 ^ d) ∧
    ∀ m : ℤ, worth n = m / 10 ^ d → |m| < 2 ^ 52 → q = worth n := by
  refine ⟨_, fixedText_writes d n, shown_near d n, ?_⟩
  intro m hm hb
  have near := shown_near d n
  have err := roundDouble_error (worth n)
  rw [← float_eq] at err
  have pd : (0 : ℚ) < 10 ^ d := by positivity
  have hz : ∃ z : ℤ, (if n.num < 0 then -1 else 1) * ((shownUnits d n : ℕ) : ℚ) = z := by
    split
    · exact ⟨-(shownUnits d n : ℕ), by push_cast; ring⟩
    · exact ⟨(shownUnits d n : ℕ), by push_cast; ring⟩
  obtain ⟨z, hz⟩ := hz
  rw [hz] at near ⊢
  have tri := abs_sub_le ((z : ℚ) / 10 ^ d) n.float (worth n)
  rw [hm] at tri err ⊢
  have hb' : |(m : ℚ)| < 2 ^ 52 := by exact_mod_cast hb
  have e1 : |(z : ℚ) / 10 ^ d - m / 10 ^ d| = |(z : ℚ) - m| / 10 ^ d := by
    rw [← sub_div, abs_div, abs_of_pos pd]
  have e2 : |(m : ℚ) / 10 ^ d| = |(m : ℚ)| / 10 ^ d := by rw [abs_div, abs_of_pos pd]
  rw [e1] at tri
  rw [e2] at err
  have h1 : |(z : ℚ) - m| / 10 ^ d ≤ 1 / (2 * 10 ^ d) + |(m : ℚ)| / 10 ^ d / 2 ^ 53 := by linarith
  have h2 : (1 / (2 * 10 ^ d) + |(m : ℚ)| / 10 ^ d / 2 ^ 53) = (1 / 2 + |(m : ℚ)| / 2 ^ 53) / 10 ^ d := by
    field_simp
  rw [h2, div_le_div_iff_of_pos_right pd] at h1
  have h3 : |(m : ℚ)| / 2 ^ 53 < 1 / 2 := by
    rw [div_lt_div_iff₀ (by positivity) (by norm_num)]
    linarith
  have h4 : |(z : ℚ) - m| < 1 := by linarith
  have h5 : |z - m| < 1 := by exact_mod_cast h4
  have : z = m := by
    rcases abs_cases (z - m) with ⟨e, _⟩ | ⟨e, _⟩ <;> omega
  rw [this]

/-- there are `d` digits after the point -/
theorem fixedText_shape (d : Nat) (n : Num) : ∃ a b, fixedText d n = a ++ '.' :: b ∧ b.length = d ∧ DigitText (b ++ ['0']) := by
  refine ⟨(if n.num < 0 then ['-'] else []) ++ natDigits (shownUnits d n / 10 ^ d), _, rfl, lastDigits_length _ _, ?_, ?_⟩
  · simp
  · intro c hc
    rcases List.mem_append.1 hc with h | h
    · exact lastDigits_digits _ _ c h
    · simp only [List.mem_cons, List.not_mem_nil, or_false] at h
      subst h
      decide

/-! ### Base64 -/

theorem sixBits_char : ∀ n : Fin 64, sixBits (base64Char n.val) = some n.val ∧ base64Char n.val ≠ '=' := by decide +kernel

theorem sixBits_base64 (n : Nat) (h : n < 64) : sixBits (base64Char n) = some n := (sixBits_char ⟨n, h⟩).1
theorem base64_pad (n : Nat) (h : n < 64) : base64Char n ≠ '=' := (sixBits_char ⟨n, h⟩).2

theorem base64_back (l : List Nat) (h : ∀ b ∈ l, b < 256) : base64Bytes (b64encode l) = some l := by
  fun_induction b64encode l with
  | case1 => rfl
  | case2 a =>
    have ha := h a (by simp)
    simp only [base64Bytes, sixBits_base64 (a / 4) (by omega), sixBits_base64 (a % 4 * 16) (by omega), and_self, if_true,
      Option.some.injEq, List.cons.injEq, and_true]
    omega
  | case3 a b =>
    have ha := h a (by simp)
    have hb := h b (by simp)
    simp only [base64Bytes, sixBits_base64 (a / 4) (by omega), sixBits_base64 (a % 4 * 16 + b / 16) (by omega),
      sixBits_base64 (b % 16 * 4) (by omega), base64_pad (b % 16 * 4) (by omega), false_and, if_false, and_self, if_true,
      Option.some.injEq, List.cons.injEq, and_true]
    omega
  | case4 a b c l ih =>
    have ha := h a (by simp)
    have hb := h b (by simp)
    have hc := h c (by simp)
    have ih := ih (fun x hx => h x (by simp [hx]))
    simp only [base64Bytes, sixBits_base64 (a / 4) (by omega), sixBits_base64 (a % 4 * 16 + b / 16) (by omega),
      sixBits_base64 (b % 16 * 4 + c / 64) (by omega), sixBits_base64 (c % 64) (by omega), base64_pad (b % 16 * 4 + c / 64) (by omega),
      base64_pad (c % 64) (by omega), false_and, if_false, ih, List.cons_append, List.nil_append,
      Option.some.injEq, List.cons.injEq, and_true]
    omega

/-! ### The style sheet -/

theorem readStyle_page {text : Str} {tiles : List Str} {st player record url : Str} {gs : Forest → Forest}
    (h : document text = some (pageF tiles st player record url gs)) : readStyle text = some (firstStyles ++ (st ++ otherStyles)) := by
  obtain ⟨i, h1, h2, _⟩ := page_html tiles st player record url gs
  have e : (headF st).children "style" = [("style type=\"text/css\"".toList, charsF firstStyles (charsF st (charsF otherStyles .nil)))] := by
    unfold headF
    generalize firstStyles = a
    generalize otherStyles = b
    rw [children_charsF, children_el_ne _ _ _ _ (by decide), children_charsF, children_el_ne _ _ _ _ (by decide), children_charsF,
      children_el_eq _ _ _ _ rfl, children_charsF, children_nil]
  unfold readStyle
  rw [h]
  simp only [h1, h2, e, content_charsF, content_nil, List.append_nil]

theorem styles_rule (picture : Str → Except PyErr (List Nat)) (l : List Str) (t : Str) (ht : t ∈ l) :
    ∃ a b, stylesText picture l = a ++ (styleText t ((picture (t ++ ".png".toList)).toOption.getD []) ++ b) := by
  obtain ⟨x, y, rfl⟩ := List.append_of_mem ht
  exact ⟨stylesText picture x, stylesText picture y, by simp [stylesText]⟩

end Verif.Proofs
