import Verif.Py.Float
import Verif.Spec.Float
import Mathlib.Algebra.Order.Field.Basic
import Mathlib.Algebra.Order.Ring.Abs
import Mathlib.Tactic.Linarith
import Mathlib.Tactic.Positivity
import Mathlib.Tactic.FieldSimp
import Mathlib.Tactic.Ring
import Mathlib.Algebra.Order.Field.Power

/-! Rounding to the nearest float. -/
namespace Verif.Proofs
open Verif.Py Verif.Spec

/-- rounding a fraction to a whole number: no whole number is nearer; if another is equally near, the result is even -/
theorem roundHalfEven_nearest (a b : Nat) (hb : 0 < b) :
    |(roundHalfEven a b : ℚ) - a / b| ≤ 1 / 2 ∧
    (∀ z : ℤ, |(roundHalfEven a b : ℚ) - a / b| ≤ |(z : ℚ) - a / b|) ∧
    (∀ z : ℤ, |(roundHalfEven a b : ℚ) - a / b| = |(z : ℚ) - a / b| → z = roundHalfEven a b ∨ roundHalfEven a b % 2 = 0) := by
  have hbq : (0 : ℚ) < b := by exact_mod_cast hb
  have hm := Nat.div_add_mod a b
  have hlt := Nat.mod_lt a hb
  unfold roundHalfEven
  simp only
  generalize a / b = q at hm ⊢
  generalize a % b = r at hm hlt ⊢
  have hx : (a : ℚ) / b = q + (r : ℚ) / b := by
    rw [← hm]; push_cast; field_simp
  have hr0 : (0 : ℚ) ≤ (r : ℚ) / b := by positivity
  have hr1 : (r : ℚ) / b < 1 := by rw [div_lt_one hbq]; exact_mod_cast hlt
  rw [hx]
  have hz : ∀ z : ℤ, z ≤ q ∨ z = q + 1 ∨ (q : ℤ) + 2 ≤ z := fun z => by omega
  have low : ∀ z : ℤ, z ≤ q → |(z : ℚ) - (q + (r : ℚ) / b)| = q + (r : ℚ) / b - z := by
    intro z h
    have : (z : ℚ) ≤ q := by exact_mod_cast h
    rw [abs_of_nonpos (by linarith)]; ring
  have high : ∀ z : ℤ, (q : ℤ) + 1 ≤ z → |(z : ℚ) - (q + (r : ℚ) / b)| = z - (q + (r : ℚ) / b) := by
    intro z h
    have : (q : ℚ) + 1 ≤ z := by exact_mod_cast h
    rw [abs_of_nonneg (by linarith)]
  have eq0 : |(q : ℚ) - (q + (r : ℚ) / b)| = (r : ℚ) / b := by
    have := low q (le_refl _)
    push_cast at this
    rw [this]; ring
  have eq1 : |((q + 1 : ℕ) : ℚ) - (q + (r : ℚ) / b)| = 1 - (r : ℚ) / b := by
    have := high (q + 1) (le_refl _)
    push_cast at this ⊢
    rw [this]; ring
  have half : ∀ x y : ℕ, x ≤ y → (x : ℚ) ≤ y := fun x y h => by exact_mod_cast h
  have halfl : ∀ x y : ℕ, x < y → (x : ℚ) < y := fun x y h => by exact_mod_cast h
  have case0 : (r : ℚ) / b ≤ 1 / 2 → |(q : ℚ) - (q + (r : ℚ) / b)| ≤ 1 / 2 ∧
      (∀ z : ℤ, |(q : ℚ) - (q + (r : ℚ) / b)| ≤ |(z : ℚ) - (q + (r : ℚ) / b)|) ∧
      (∀ z : ℤ, |(q : ℚ) - (q + (r : ℚ) / b)| = |(z : ℚ) - (q + (r : ℚ) / b)| → z = q ∨ (r : ℚ) / b = 1 / 2) := by
    intro h
    rw [eq0]
    refine ⟨h, fun z => ?_, fun z => ?_⟩
    · by_cases hz : z ≤ q
      · rw [low z hz]
        have : (z : ℚ) ≤ q := by exact_mod_cast hz
        linarith
      · rw [high z (by omega)]
        have : (q : ℚ) + 1 ≤ z := by exact_mod_cast (by omega : (q : ℤ) + 1 ≤ z)
        linarith
    · by_cases hz : z ≤ q
      · rw [low z hz]
        intro e
        left
        have : (z : ℚ) = q := by linarith
        exact_mod_cast this
      · rw [high z (by omega)]
        have : (q : ℚ) + 1 ≤ z := by exact_mod_cast (by omega : (q : ℤ) + 1 ≤ z)
        intro e
        right
        linarith
  have case1 : 1 / 2 ≤ (r : ℚ) / b → |((q + 1 : ℕ) : ℚ) - (q + (r : ℚ) / b)| ≤ 1 / 2 ∧
      (∀ z : ℤ, |((q + 1 : ℕ) : ℚ) - (q + (r : ℚ) / b)| ≤ |(z : ℚ) - (q + (r : ℚ) / b)|) ∧
      (∀ z : ℤ, |((q + 1 : ℕ) : ℚ) - (q + (r : ℚ) / b)| = |(z : ℚ) - (q + (r : ℚ) / b)| → z = (q + 1 : ℕ) ∨ (r : ℚ) / b = 1 / 2) := by
    intro h
    rw [eq1]
    refine ⟨by linarith, fun z => ?_, fun z => ?_⟩
    · by_cases hz : z ≤ q
      · rw [low z hz]
        have : (z : ℚ) ≤ q := by exact_mod_cast hz
        linarith
      · rw [high z (by omega)]
        have : (q : ℚ) + 1 ≤ z := by exact_mod_cast (by omega : (q : ℤ) + 1 ≤ z)
        linarith
    · by_cases hz : z ≤ q
      · rw [low z hz]
        have : (z : ℚ) ≤ q := by exact_mod_cast hz
        intro e
        right
        linarith
      · rw [high z (by omega)]
        intro e
        left
        have : (z : ℚ) = ((q + 1 : ℕ) : ℚ) := by push_cast; linarith
        exact_mod_cast this
  by_cases h1 : 2 * r < b
  · rw [if_pos h1]
    have hh : (r : ℚ) / b < 1 / 2 := by
      rw [div_lt_div_iff₀ hbq (by norm_num)]
      have := halfl _ _ h1
      push_cast at this
      linarith
    obtain ⟨c1, c2, c3⟩ := case0 hh.le
    exact ⟨c1, c2, fun z e => (c3 z e).imp id (fun h => absurd h hh.ne)⟩
  rw [if_neg h1]
  by_cases h2 : b < 2 * r
  · rw [if_pos h2]
    have hh : 1 / 2 < (r : ℚ) / b := by
      rw [div_lt_div_iff₀ (by norm_num) hbq]
      have := halfl _ _ h2
      push_cast at this
      linarith
    obtain ⟨c1, c2, c3⟩ := case1 hh.le
    exact ⟨c1, c2, fun z e => (c3 z e).imp id (fun h => absurd h.symm hh.ne)⟩
  rw [if_neg h2]
  have h3 : b = 2 * r := by omega
  have hh : (r : ℚ) / b = 1 / 2 := by
    rw [h3]
    have : (r : ℚ) ≠ 0 := by
      intro h
      have : r = 0 := by exact_mod_cast h
      omega
    push_cast
    field_simp
  by_cases h4 : q % 2 = 0
  · rw [if_pos h4]
    obtain ⟨c1, c2, c3⟩ := case0 hh.le
    exact ⟨c1, c2, fun z e => Or.inr h4⟩
  · rw [if_neg h4]
    obtain ⟨c1, c2, c3⟩ := case1 hh.ge
    exact ⟨c1, c2, fun z e => Or.inr (by omega)⟩

theorem times2_eq (m : Nat) (e : Int) : times2 m e = m * (2 : ℚ) ^ e := by
  unfold times2
  split
  · rename_i h
    obtain ⟨k, rfl⟩ := Int.eq_ofNat_of_zero_le h
    simp
  · rename_i h
    obtain ⟨k, hk⟩ := Int.eq_ofNat_of_zero_le (show 0 ≤ -e by omega)
    have : e = -(k : ℤ) := by omega
    subst this
    simp [div_eq_mul_inv]

theorem scaled_eq (n d : Nat) (hd : 0 < d) (e : Int) : 0 < (scaled n d e).2 ∧
    ((scaled n d e).1 : ℚ) / (scaled n d e).2 = (n : ℚ) / d / (2 : ℚ) ^ e := by
  unfold scaled
  split
  · rename_i h
    obtain ⟨k, rfl⟩ := Int.eq_ofNat_of_zero_le h
    refine ⟨by positivity, ?_⟩
    simp [div_div]
  · rename_i h
    obtain ⟨k, hk⟩ := Int.eq_ofNat_of_zero_le (show 0 ≤ -e by omega)
    have : e = -(k : ℤ) := by omega
    subst this
    refine ⟨hd, ?_⟩
    simp
    ring

theorem log2_bounds {n : Nat} (hn : 0 < n) : (2 : ℚ) ^ (n.log2 : ℤ) ≤ n ∧ (n : ℚ) < (2 : ℚ) ^ ((n.log2 : ℤ) + 1) := by
  have h1 : 2 ^ n.log2 ≤ n := (Nat.le_log2 (by omega)).1 (Nat.le_refl _)
  have h2 : n < 2 ^ (n.log2 + 1) := (Nat.log2_lt (by omega)).1 (by omega)
  constructor
  · rw [zpow_natCast]; exact_mod_cast h1
  · have : ((n.log2 : ℤ) + 1) = ((n.log2 + 1 : ℕ) : ℤ) := by push_cast; rfl
    rw [this, zpow_natCast]; exact_mod_cast h2

theorem binade_eq {n d : Nat} (hn : 0 < n) (hd : 0 < d) :
    (2 : ℚ) ^ binade n d ≤ (n : ℚ) / d ∧ (n : ℚ) / d < (2 : ℚ) ^ (binade n d + 1) := by
  obtain ⟨n1, n2⟩ := log2_bounds hn
  obtain ⟨d1, d2⟩ := log2_bounds hd
  have hdq : (0 : ℚ) < d := by exact_mod_cast hd
  have two : (2 : ℚ) ≠ 0 := by norm_num
  have up : (n : ℚ) / d < (2 : ℚ) ^ ((n.log2 : ℤ) - d.log2 + 1) := by
    rw [div_lt_iff₀ hdq]
    have : (2 : ℚ) ^ ((n.log2 : ℤ) - d.log2 + 1) * (2 : ℚ) ^ (d.log2 : ℤ) = (2 : ℚ) ^ ((n.log2 : ℤ) + 1) := by
      rw [← zpow_add₀ two]; congr 1; omega
    calc (n : ℚ) < (2 : ℚ) ^ ((n.log2 : ℤ) + 1) := n2
      _ = (2 : ℚ) ^ ((n.log2 : ℤ) - d.log2 + 1) * (2 : ℚ) ^ (d.log2 : ℤ) := this.symm
      _ ≤ (2 : ℚ) ^ ((n.log2 : ℤ) - d.log2 + 1) * d := mul_le_mul_of_nonneg_left d1 (by positivity)
  have down : (2 : ℚ) ^ ((n.log2 : ℤ) - d.log2 - 1) ≤ (n : ℚ) / d := by
    rw [le_div_iff₀ hdq]
    have : (2 : ℚ) ^ ((n.log2 : ℤ) - d.log2 - 1) * (2 : ℚ) ^ ((d.log2 : ℤ) + 1) = (2 : ℚ) ^ (n.log2 : ℤ) := by
      rw [← zpow_add₀ two]; congr 1; omega
    calc (2 : ℚ) ^ ((n.log2 : ℤ) - d.log2 - 1) * d ≤ (2 : ℚ) ^ ((n.log2 : ℤ) - d.log2 - 1) * (2 : ℚ) ^ ((d.log2 : ℤ) + 1) :=
          mul_le_mul_of_nonneg_left d2.le (by positivity)
      _ = (2 : ℚ) ^ (n.log2 : ℤ) := this
      _ ≤ n := n1
  unfold binade
  simp only
  obtain ⟨s1, s2⟩ := scaled_eq n d hd ((n.log2 : ℤ) - d.log2)
  generalize (scaled n d ((n.log2 : ℤ) - d.log2)).1 = a at s2 ⊢
  generalize (scaled n d ((n.log2 : ℤ) - d.log2)).2 = b at s1 s2 ⊢
  have hbq : (0 : ℚ) < b := by exact_mod_cast s1
  have hp : (0 : ℚ) < (2 : ℚ) ^ ((n.log2 : ℤ) - d.log2) := by positivity
  split
  · rename_i h
    refine ⟨?_, up⟩
    have : 1 ≤ (a : ℚ) / b := by rw [le_div_iff₀ hbq, one_mul]; exact_mod_cast h
    rw [s2, le_div_iff₀ hp, one_mul] at this
    exact this
  · rename_i h
    refine ⟨down, ?_⟩
    have : (a : ℚ) / b < 1 := by rw [div_lt_one hbq]; exact_mod_cast (by omega : a < b)
    rw [s2, div_lt_one hp] at this
    rw [sub_add_cancel]
    exact this

/-- the shape of the float nearest to a positive number -/
theorem roundDouble_shape {q : ℚ} (hq : 0 < q) : ∃ (m : ℕ) (e : ℤ), roundDouble q = m * (2 : ℚ) ^ e ∧
    2 ^ 52 ≤ m ∧ m ≤ 2 ^ 53 ∧ 2 ^ 52 * (2 : ℚ) ^ e ≤ q ∧ q < 2 ^ 53 * (2 : ℚ) ^ e ∧ |(m : ℚ) - q / (2 : ℚ) ^ e| ≤ 1 / 2 ∧
    (∀ z : ℤ, |(m : ℚ) - q / (2 : ℚ) ^ e| ≤ |(z : ℚ) - q / (2 : ℚ) ^ e|) ∧
    (∀ z : ℤ, |(m : ℚ) - q / (2 : ℚ) ^ e| = |(z : ℚ) - q / (2 : ℚ) ^ e| → z = m ∨ m % 2 = 0) := by
  have hnum : 0 < q.num := Rat.num_pos.2 hq
  have hn : 0 < q.num.natAbs := by omega
  have hd : 0 < q.den := q.den_pos
  have hqe : (q.num.natAbs : ℚ) / q.den = q := by
    have : ((q.num.natAbs : ℕ) : ℚ) = (q.num : ℚ) := by
      have : ((q.num.natAbs : ℕ) : ℤ) = q.num := by omega
      rw [← Int.cast_natCast, this]
    rw [this]
    exact Rat.num_div_den q
  obtain ⟨b1, b2⟩ := binade_eq hn hd
  rw [hqe] at b1 b2
  unfold roundDouble
  rw [if_neg (by omega)]
  simp only
  rw [if_neg (by omega), times2_eq]
  generalize hb : binade q.num.natAbs q.den = k at b1 b2 ⊢
  obtain ⟨s1, s2⟩ := scaled_eq q.num.natAbs q.den hd (k - 52)
  obtain ⟨c1, c2, c3⟩ := roundHalfEven_nearest (scaled q.num.natAbs q.den (k - 52)).1 (scaled q.num.natAbs q.den (k - 52)).2 s1
  rw [s2, hqe] at c1 c2 c3
  have two : (2 : ℚ) ≠ 0 := by norm_num
  have e1 : 2 ^ 52 * (2 : ℚ) ^ (k - 52) = (2 : ℚ) ^ k := by
    rw [← zpow_natCast (2 : ℚ) 52, ← zpow_add₀ two]; congr 1; push_cast; omega
  have e2 : 2 ^ 53 * (2 : ℚ) ^ (k - 52) = (2 : ℚ) ^ (k + 1) := by
    rw [← zpow_natCast (2 : ℚ) 53, ← zpow_add₀ two]; congr 1; push_cast; omega
  have hp : (0 : ℚ) < (2 : ℚ) ^ (k - 52) := by positivity
  refine ⟨_, k - 52, rfl, ?_, ?_, by rw [e1]; exact b1, by rw [e2]; exact b2, c1, c2, c3⟩
  all_goals generalize roundHalfEven (scaled q.num.natAbs q.den (k - 52)).1 (scaled q.num.natAbs q.den (k - 52)).2 = m at *
  · have h1 : (2 : ℚ) ^ 52 ≤ q / (2 : ℚ) ^ (k - 52) := by rw [le_div_iff₀ hp, e1]; exact b1
    by_contra hc
    have h2 : m + 1 ≤ 2 ^ 52 := by omega
    have h3 : (m : ℚ) + 1 ≤ 2 ^ 52 := by exact_mod_cast h2
    rw [abs_of_nonpos (by linarith)] at c1
    linarith
  · have h1 : q / (2 : ℚ) ^ (k - 52) < (2 : ℚ) ^ 53 := by rw [div_lt_iff₀ hp, e2]; exact b2
    by_contra hc
    have h2 : 2 ^ 53 + 1 ≤ m := by omega
    have h3 : (2 : ℚ) ^ 53 + 1 ≤ m := by exact_mod_cast h2
    rw [abs_of_nonneg (by linarith)] at c1
    linarith

theorem roundDouble_neg (q : ℚ) : roundDouble (-q) = -roundDouble q := by
  unfold roundDouble
  rw [Rat.num_neg_eq_neg_num, Rat.den_neg_eq_den, Int.natAbs_neg]
  by_cases h : q.num = 0
  · simp [h]
  · rw [if_neg (by omega), if_neg h]
    simp only
    by_cases h1 : q.num < 0
    · rw [if_pos h1, if_neg (by omega), neg_neg]
    · rw [if_neg h1, if_pos (by omega)]

theorem roundDouble_zero : roundDouble 0 = 0 := rfl

theorem roundDouble_pos {q : ℚ} (hq : 0 < q) : 0 < roundDouble q := by
  obtain ⟨m, e, h, h1, _⟩ := roundDouble_shape hq
  rw [h]
  have : 0 < m := lt_of_lt_of_le (by norm_num) h1
  positivity

theorem isDouble_neg {q : ℚ} (h : IsDouble q) : IsDouble (-q) := by
  obtain ⟨m, e, h1, rfl⟩ := h
  exact ⟨-m, e, by rwa [abs_neg], by push_cast; ring⟩

theorem isDouble_zero : IsDouble 0 := ⟨0, 0, by norm_num, by norm_num⟩

theorem nearest_pos {q : ℚ} (hq : 0 < q) : NearestDouble q (roundDouble q) := by
  obtain ⟨m, e, h, h1, h2, h3, h4, h5, h6, _⟩ := roundDouble_shape hq
  have hp : (0 : ℚ) < (2 : ℚ) ^ e := by positivity
  have two : (2 : ℚ) ≠ 0 := by norm_num
  refine ⟨⟨m, e, by rw [abs_of_nonneg (by omega)]; exact_mod_cast h2, by rw [h]; push_cast; rfl⟩, ?_⟩
  rw [h]
  have scale : ∀ x : ℚ, |x * (2 : ℚ) ^ e - q| = |x - q / (2 : ℚ) ^ e| * (2 : ℚ) ^ e := by
    intro x
    have : x * (2 : ℚ) ^ e - q = (x - q / (2 : ℚ) ^ e) * (2 : ℚ) ^ e := by field_simp
    rw [this, abs_mul, abs_of_pos hp]
  have grid : ∀ z : ℤ, |(m : ℚ) * (2 : ℚ) ^ e - q| ≤ |(z : ℚ) * (2 : ℚ) ^ e - q| := by
    intro z
    rw [scale, scale]
    exact mul_le_mul_of_nonneg_right (h6 z) hp.le
  rintro c ⟨m', e', hm', rfl⟩
  by_cases he : e ≤ e'
  · obtain ⟨k, hk⟩ := Int.eq_ofNat_of_zero_le (show 0 ≤ e' - e by omega)
    have : (m' : ℚ) * (2 : ℚ) ^ e' = ((m' * 2 ^ k : ℤ) : ℚ) * (2 : ℚ) ^ e := by
      have e'k : e' = (k : ℤ) + e := by omega
      rw [e'k, zpow_add₀ two, zpow_natCast]
      push_cast
      ring
    rw [this]
    exact grid _
  · have hlow := grid (2 ^ 52)
    push_cast at hlow
    refine le_trans hlow ?_
    have hm : (m' : ℚ) ≤ 2 ^ 53 := by exact_mod_cast le_trans (le_abs_self m') hm'
    have hc : (m' : ℚ) * (2 : ℚ) ^ e' ≤ 2 ^ 52 * (2 : ℚ) ^ e := by
      calc (m' : ℚ) * (2 : ℚ) ^ e' ≤ 2 ^ 53 * (2 : ℚ) ^ e' := mul_le_mul_of_nonneg_right hm (by positivity)
        _ ≤ 2 ^ 53 * (2 : ℚ) ^ (e - 1) := mul_le_mul_of_nonneg_left (zpow_le_zpow_right₀ (by norm_num) (by omega)) (by positivity)
        _ = 2 ^ 52 * (2 : ℚ) ^ e := by rw [zpow_sub₀ two]; norm_num; ring
    rw [abs_of_nonpos (by linarith), abs_of_nonpos (by linarith)]
    linarith

/-- rounding gives the nearest float -/
theorem roundDouble_nearest (q : ℚ) : NearestDouble q (roundDouble q) := by
  rcases lt_trichotomy q 0 with h | h | h
  · obtain ⟨h1, h2⟩ := nearest_pos (show 0 < -q by linarith)
    rw [roundDouble_neg] at h1 h2
    refine ⟨by simpa using isDouble_neg h1, fun c hc => ?_⟩
    have := h2 (-c) (isDouble_neg hc)
    rw [show -roundDouble q - -q = -(roundDouble q - q) by ring, show -c - -q = -(c - q) by ring, abs_neg, abs_neg] at this
    exact this
  · subst h
    rw [roundDouble_zero]
    exact ⟨isDouble_zero, fun c _ => by simp⟩
  · exact nearest_pos h

theorem roundDouble_double {q : ℚ} (h : IsDouble q) : roundDouble q = q := by
  have := (roundDouble_nearest q).2 q h
  rw [sub_self, abs_zero] at this
  have := abs_eq_zero.1 (le_antisymm this (abs_nonneg _))
  linarith

theorem isDouble_round (q : ℚ) : IsDouble (roundDouble q) := (roundDouble_nearest q).1

theorem isDouble_int {z : ℤ} (h : |z| ≤ 2 ^ 53) : IsDouble z := ⟨z, 0, h, by simp⟩

theorem roundDouble_int {z : ℤ} (h : |z| ≤ 2 ^ 53) : roundDouble z = z := roundDouble_double (isDouble_int h)

theorem roundDouble_one : roundDouble 1 = 1 := by
  have := roundDouble_int (z := 1) (by norm_num)
  simpa using this

/-- rounding keeps the order -/
theorem roundDouble_mono {p q : ℚ} (h : p ≤ q) : roundDouble p ≤ roundDouble q := by
  rcases eq_or_lt_of_le h with h | h
  · rw [h]
  by_contra hc
  have hc : roundDouble q < roundDouble p := lt_of_not_ge hc
  have h1 := (roundDouble_nearest p).2 _ (isDouble_round q)
  have h2 := (roundDouble_nearest q).2 _ (isDouble_round p)
  rcases abs_cases (roundDouble p - p) with ⟨a, _⟩ | ⟨a, _⟩ <;>
  rcases abs_cases (roundDouble q - p) with ⟨b, _⟩ | ⟨b, _⟩ <;>
  rcases abs_cases (roundDouble q - q) with ⟨c, _⟩ | ⟨c, _⟩ <;>
  rcases abs_cases (roundDouble p - q) with ⟨d, _⟩ | ⟨d, _⟩ <;>
  linarith

/-- rounding changes a number by at most its `2 ^ 53`th part -/
theorem roundDouble_error (q : ℚ) : |roundDouble q - q| ≤ |q| / 2 ^ 53 := by
  have pos : ∀ q : ℚ, 0 < q → |roundDouble q - q| ≤ |q| / 2 ^ 53 := by
    intro q hq
    obtain ⟨m, e, h, h1, h2, h3, h4, h5, _⟩ := roundDouble_shape hq
    have hp : (0 : ℚ) < (2 : ℚ) ^ e := by positivity
    rw [h, abs_of_pos hq]
    have : (m : ℚ) * (2 : ℚ) ^ e - q = (m - q / (2 : ℚ) ^ e) * (2 : ℚ) ^ e := by field_simp
    rw [this, abs_mul, abs_of_pos hp, le_div_iff₀ (by positivity)]
    calc |(m : ℚ) - q / (2 : ℚ) ^ e| * (2 : ℚ) ^ e * 2 ^ 53 ≤ 1 / 2 * (2 : ℚ) ^ e * 2 ^ 53 := by
          refine mul_le_mul_of_nonneg_right (mul_le_mul_of_nonneg_right h5 hp.le) (by positivity)
      _ = 2 ^ 52 * (2 : ℚ) ^ e := by ring
      _ ≤ q := h3
  rcases lt_trichotomy q 0 with h | h | h
  · have := pos (-q) (by linarith)
    rw [roundDouble_neg, show -roundDouble q - -q = -(roundDouble q - q) by ring, abs_neg, abs_neg] at this
    exact this
  · subst h
    rw [roundDouble_zero]
    norm_num
  · exact pos q h

theorem roundDouble_eq_zero {q : ℚ} : roundDouble q = 0 ↔ q = 0 := by
  constructor
  · intro h
    rcases lt_trichotomy q 0 with h' | h' | h'
    · have := roundDouble_pos (show 0 < -q by linarith)
      rw [roundDouble_neg] at this
      linarith
    · exact h'
    · have := roundDouble_pos h'
      linarith
  · rintro rfl
    exact roundDouble_zero

end Verif.Proofs
