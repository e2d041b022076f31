import Verif.Proofs.FloatNumber
import Verif.Props.Record

/-! Property C95: numbers are floats where they are not whole. -/
namespace Verif.Props
open Verif.Py Verif.Model Verif.Spec Verif.Proofs

/-- **C95.** Rounding gives the nearest float, and of two equally near the one with the even significand. -/
theorem C95_nearest (q : ℚ) : NearestDouble q (roundDouble q) ∧
    ∀ c, NearestDouble q c → c ≠ roundDouble q →
      ∃ m e : ℤ, m % 2 = 0 ∧ 2 ^ 52 ≤ |m| ∧ |m| ≤ 2 ^ 53 ∧ roundDouble q = m * (2 : ℚ) ^ e := by
  refine ⟨roundDouble_nearest q, fun c hc hne => ?_⟩
  exact tie_even hc hne

/-- **C95.** Rounding keeps the order, keeps floats, and changes a number by at most its `2 ^ 53`th part. -/
theorem C95_round (p q : ℚ) : (p ≤ q → roundDouble p ≤ roundDouble q) ∧ (IsDouble q → roundDouble q = q) ∧
    |roundDouble q - q| ≤ |q| / 2 ^ 53 :=
  ⟨roundDouble_mono, roundDouble_double, roundDouble_error q⟩

/-- **C95.** A number written with at most 15 digits: `number_list` gives the integer if it is whole, and otherwise the nearest
    float, which is not whole. -/
theorem C95_entry (s : Str) (m : ℤ) (k : ℕ) (hm : |m| < 10 ^ 15) (h : NumberText s (m / 10 ^ k)) :
    (∀ z : ℤ, (m : ℚ) / 10 ^ k = z → numberEntry s = .ok (.int z)) ∧
    ((∀ z : ℤ, (m : ℚ) / 10 ^ k ≠ z) → ∃ f, numberEntry s = .ok (.float f) ∧ NearestDouble (m / 10 ^ k) f) := by
  obtain ⟨h1, h2⟩ := numberEntry_spec hm h
  exact ⟨h1, fun hz => ⟨_, h2 hz, roundDouble_nearest _⟩⟩

theorem join_intercalate (sep : Char) (ts : List Str) : joinWith sep ts = List.intercalate [sep] ts := by
  induction ts with
  | nil => rfl
  | cons t ts ih =>
    cases ts with
    | nil => simp [joinWith, List.intercalate]
    | cons u us => rw [joinWith, ih]; simp [List.intercalate, List.intersperse]; exact (fun h => by cases h)

/-- **C95.** Numbers with commas between them, each written with at most 15 digits: `number_list` gives one entry for each, in
    this order, the integer if the number is whole and otherwise the nearest float. -/
theorem C95_list (ts : List Str) (ns : List (ℤ × ℕ)) (hne : ts ≠ []) (hc : ∀ t ∈ ts, ',' ∉ t)
    (h : List.Forall₂ (fun t n => |n.1| < 10 ^ 15 ∧ NumberText t ((n.1 : ℚ) / 10 ^ n.2)) ts ns) :
    ∃ l, pyNumberList (List.intercalate [','] ts) = .ok l ∧ List.Forall₂ (fun (n : ℤ × ℕ) (x : PyNum) =>
      (∀ z : ℤ, (n.1 : ℚ) / 10 ^ n.2 = z → x = .int z) ∧
      ((∀ z : ℤ, (n.1 : ℚ) / 10 ^ n.2 ≠ z) → ∃ f, x = .float f ∧ NearestDouble ((n.1 : ℚ) / 10 ^ n.2) f)) ns l := by
  rw [← join_intercalate, pyNumberList, splitOn_join ',' ts hne hc]
  clear hne hc
  induction h with
  | nil => exact ⟨[], rfl, .nil⟩
  | @cons t n ts ns hx _ ih =>
    obtain ⟨l, hl, hl'⟩ := ih
    obtain ⟨h1, h2⟩ := C95_entry t n.1 n.2 hx.1 hx.2
    have : ∃ x, numberEntry t = .ok x ∧ (∀ z : ℤ, (n.1 : ℚ) / 10 ^ n.2 = z → x = .int z) ∧
        ((∀ z : ℤ, (n.1 : ℚ) / 10 ^ n.2 ≠ z) → ∃ f, x = .float f ∧ NearestDouble ((n.1 : ℚ) / 10 ^ n.2) f) := by
      by_cases hz : ∃ z : ℤ, (n.1 : ℚ) / 10 ^ n.2 = z
      · obtain ⟨z, hz⟩ := hz
        exact ⟨_, h1 z hz, fun z' hz' => by rw [show z = z' by exact_mod_cast hz.symm.trans hz'], fun hn => absurd hz (hn z)⟩
      · have hz' : ∀ z : ℤ, (n.1 : ℚ) / 10 ^ n.2 ≠ z := fun z e => hz ⟨z, e⟩
        obtain ⟨f, hf, hf'⟩ := h2 hz'
        exact ⟨_, hf, fun z e => absurd e (hz' z), fun _ => ⟨f, rfl, hf'⟩⟩
    obtain ⟨x, hx, hx'⟩ := this
    refine ⟨x :: l, ?_, .cons hx' hl'⟩
    rw [List.mapM_cons, hx, hl]
    rfl

/-- the hypotheses of `C95_list` are met by the scores of a record -/
example : List.Forall₂ (fun t n => |n.1| < 10 ^ 15 ∧ NumberText t ((n.1 : ℚ) / 10 ^ n.2)) ["250".toList, "-12.5".toList]
    [((250 : ℤ), 0), (-125, 1)] := by
  refine .cons ⟨by norm_num, ?_⟩ (.cons ⟨by norm_num, ?_⟩ .nil)
  · exact (parseNum_iff _ _).1 ⟨.int 250, by decide +kernel, by norm_num [worth]⟩
  · exact (parseNum_iff _ _).1 ⟨.dec (-125) 1, by decide +kernel, by norm_num [worth]⟩

/-- **C95.** Two numbers written with at most 15 digits compare as floats as the numbers written do. -/
theorem C95_order (s t : Str) (m m' : ℤ) (k k' : ℕ) (hm : |m| < 10 ^ 15) (hm' : |m'| < 10 ^ 15)
    (hs : NumberText s (m / 10 ^ k)) (ht : NumberText t (m' / 10 ^ k')) :
    ∃ a b, numberEntry s = .ok a ∧ numberEntry t = .ok b ∧
      (a.value < b.value ↔ (m : ℚ) / 10 ^ k < m' / 10 ^ k') ∧ (a.value = b.value ↔ (m : ℚ) / 10 ^ k = m' / 10 ^ k') := by
  obtain ⟨a, ha, va⟩ := entry_value hm hs
  obtain ⟨b, hb, vb⟩ := entry_value hm' ht
  refine ⟨a, b, ha, hb, ?_, ?_⟩
  · rw [va, vb]; exact roundDouble_order hm hm'
  · rw [va, vb]
    exact ⟨roundDouble_distinct hm hm', fun h => by rw [h]⟩

/-- **C95.** A hundred times a number written with at most 15 digits: exact for whole numbers, and otherwise within a
    `2 ^ 51`th part of what was written. -/
theorem C95_product (s : Str) (m : ℤ) (k : ℕ) (hm : |m| < 10 ^ 15) (h : NumberText s (m / 10 ^ k)) :
    ∃ a, numberEntry s = .ok a ∧ (∀ z : ℤ, (m : ℚ) / 10 ^ k = z → a.times100 = .int (z * 100)) ∧
      |a.times100.value - m / 10 ^ k * 100| ≤ |(m : ℚ) / 10 ^ k * 100| / 2 ^ 51 := by
  obtain ⟨h1, h2⟩ := numberEntry_spec hm h
  by_cases hz : ∃ z : ℤ, (m : ℚ) / 10 ^ k = z
  · obtain ⟨z, hz⟩ := hz
    refine ⟨_, h1 z hz, fun z' hz' => ?_, ?_⟩
    · have : z = z' := by exact_mod_cast hz.symm.trans hz'
      rw [this]; rfl
    · simp only [PyNum.times100, PyNum.value, hz]
      push_cast
      rw [sub_self, abs_zero]
      positivity
  · have hz' : ∀ z : ℤ, (m : ℚ) / 10 ^ k ≠ z := fun z e => hz ⟨z, e⟩
    refine ⟨_, h2 hz', fun z e => absurd e (hz' z), ?_⟩
    generalize (m : ℚ) / 10 ^ k = x
    simp only [PyNum.times100, PyNum.value]
    have e1 := roundDouble_error x
    have e2 := roundDouble_error (roundDouble x * 100)
    generalize roundDouble (roundDouble x * 100) = b at e2 ⊢
    generalize roundDouble x = a at e1 e2
    rw [abs_mul, abs_of_pos (show (0 : ℚ) < 100 by norm_num)] at e2 ⊢
    have e3 : |a| ≤ |x| + |x| / 2 ^ 53 := by
      have := abs_add_le (a - x) x
      rw [sub_add_cancel] at this
      linarith
    have e4 : |b - x * 100| ≤ |b - a * 100| + |a - x| * 100 := by
      have := abs_add_le (b - a * 100) ((a - x) * 100)
      rw [abs_mul, abs_of_pos (show (0 : ℚ) < 100 by norm_num)] at this
      have e : b - a * 100 + (a - x) * 100 = b - x * 100 := by ring
      rwa [e] at this
    have e5 := abs_nonneg x
    have : |b - x * 100| ≤ (|x| + |x| / 2 ^ 53) * 100 / 2 ^ 53 + |x| / 2 ^ 53 * 100 := by
      refine le_trans e4 (add_le_add (le_trans e2 ?_) (by linarith))
      have : |a| * 100 ≤ (|x| + |x| / 2 ^ 53) * 100 := by linarith
      exact div_le_div_of_nonneg_right this (by positivity)
    refine le_trans this ?_
    ring_nf
    linarith

/-- **C95.** The product of a number that is not whole need not be the number a hundred times the one written: `0.29` gives
    `28.999999999999996`. -/
theorem C95_product_inexact : ∃ a, numberEntry "0.29".toList = .ok a ∧ a.times100 ≠ .int 29 ∧ a.times100.value < 29 := by
  refine ⟨.float (roundDouble (29 / 100)), ?_, ?_, ?_⟩ <;> decide +kernel

example : numberEntry "27.50".toList = .ok (.float (55 / 2)) ∧ numberEntry "1500.00".toList = .ok (.int 1500) ∧
    numberEntry "-15".toList = .ok (.int (-15)) := by decide +kernel

/-- more than 15 digits may be rounded to another whole number -/
example : numberEntry "9007199254740993".toList = .ok (.int 9007199254740992) := by decide +kernel

example : pyNumberList "250,-12.5".toList = .ok [.int 250, .float (-25 / 2)] := by decide +kernel

end Verif.Props
