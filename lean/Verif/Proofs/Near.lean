import Verif.Proofs.Float
import Mathlib.Tactic.Ring
import Mathlib.Tactic.Positivity
import Mathlib.Tactic.FieldSimp

/-! Errors of floats that add up: `Near k x y` says that `x` is `y` after `k` roundings. -/
namespace Verif.Proofs
open Verif.Py

/-- half a unit in the last place of one -/
def unit : ℚ := 1 / 2 ^ 53

/-- `x` is the non-negative number `y` up to `k` factors between `1 - unit` and `1 / (1 - unit)` -/
def Near (k : ℚ) (x y : ℚ) : Prop := 0 ≤ y ∧ (1 - k * unit) * y ≤ x ∧ (1 - k * unit) * x ≤ y

theorem unit_pos : 0 < unit := by unfold unit; norm_num

theorem Near.refl {x : ℚ} (h : 0 ≤ x) : Near 0 x x := ⟨h, by simp, by simp⟩

theorem Near.zero (k : ℚ) : Near k 0 0 := ⟨le_refl _, by simp, by simp⟩

theorem Near.nonneg {k x y : ℚ} (h : Near k x y) (hk : k * unit ≤ 1) : 0 ≤ x :=
  le_trans (mul_nonneg (by linarith) h.1) h.2.1

theorem Near.pos {k x y : ℚ} (h : Near k x y) (hk : k * unit < 1) (hy : 0 < y) : 0 < x :=
  lt_of_lt_of_le (mul_pos (by linarith) hy) h.2.1

theorem Near.mono {k l x y : ℚ} (h : Near k x y) (hl : k ≤ l) (hu : l * unit ≤ 1) : Near l x y := by
  have hx := h.nonneg (le_trans (mul_le_mul_of_nonneg_right hl unit_pos.le) hu)
  have hm : 1 - l * unit ≤ 1 - k * unit := by
    have := mul_le_mul_of_nonneg_right hl unit_pos.le
    linarith
  exact ⟨h.1, le_trans (mul_le_mul_of_nonneg_right hm h.1) h.2.1, le_trans (mul_le_mul_of_nonneg_right hm hx) h.2.2⟩

theorem Near.add {k x y x' y' : ℚ} (h : Near k x y) (h' : Near k x' y') : Near k (x + x') (y + y') := by
  refine ⟨add_nonneg h.1 h'.1, ?_, ?_⟩
  · have := h.2.1; have := h'.2.1; linarith
  · have := h.2.2; have := h'.2.2; linarith

/-- `(1 - a) (1 - b)` is at least `1 - (a + b)` -/
theorem factors {k l : ℚ} (hk : 0 ≤ k) (hl : 0 ≤ l) : 1 - (k + l) * unit ≤ (1 - k * unit) * (1 - l * unit) := by
  have := mul_nonneg (mul_nonneg hk unit_pos.le) (mul_nonneg hl unit_pos.le)
  have e : (1 - k * unit) * (1 - l * unit) = 1 - (k + l) * unit + k * unit * (l * unit) := by ring
  rw [e]
  linarith

theorem Near.trans {k l x y z : ℚ} (h : Near k x y) (h' : Near l y z) (hk : 0 ≤ k) (hl : 0 ≤ l) (hu : (k + l) * unit ≤ 1) :
    Near (k + l) x z := by
  have ku : k * unit ≤ 1 := le_trans (mul_le_mul_of_nonneg_right (by linarith) unit_pos.le) hu
  have lu : l * unit ≤ 1 := le_trans (mul_le_mul_of_nonneg_right (by linarith) unit_pos.le) hu
  have f := factors hk hl
  have hx := h.nonneg ku
  refine ⟨h'.1, ?_, ?_⟩
  · calc (1 - (k + l) * unit) * z ≤ (1 - k * unit) * (1 - l * unit) * z := mul_le_mul_of_nonneg_right f h'.1
      _ = (1 - k * unit) * ((1 - l * unit) * z) := by ring
      _ ≤ (1 - k * unit) * y := mul_le_mul_of_nonneg_left h'.2.1 (by linarith)
      _ ≤ x := h.2.1
  · calc (1 - (k + l) * unit) * x ≤ (1 - k * unit) * (1 - l * unit) * x := mul_le_mul_of_nonneg_right f hx
      _ = (1 - l * unit) * ((1 - k * unit) * x) := by ring
      _ ≤ (1 - l * unit) * y := mul_le_mul_of_nonneg_left h.2.2 (by linarith)
      _ ≤ z := h'.2.2

theorem Near.round {x : ℚ} (h : 0 ≤ x) : Near 1 (roundDouble x) x := by
  have e := abs_le.1 (roundDouble_error x)
  rw [abs_of_nonneg h] at e
  have eu : x / 2 ^ 53 = unit * x := by unfold unit; ring
  rw [eu] at e
  refine ⟨h, by linarith, ?_⟩
  have hu : (0 : ℚ) ≤ 1 - 1 * unit := by unfold unit; norm_num
  have h1 : roundDouble x ≤ (1 + unit) * x := by linarith
  calc (1 - 1 * unit) * roundDouble x ≤ (1 - 1 * unit) * ((1 + unit) * x) := mul_le_mul_of_nonneg_left h1 hu
    _ = x - unit * unit * x := by ring
    _ ≤ x := by
      have := mul_nonneg (mul_nonneg unit_pos.le unit_pos.le) h
      linarith

/-- one more rounding -/
theorem Near.rounded {k x y : ℚ} (h : Near k x y) (hk : 0 ≤ k) (hu : (k + 1) * unit ≤ 1) : Near (k + 1) (roundDouble x) y := by
  have ku : k * unit ≤ 1 := le_trans (mul_le_mul_of_nonneg_right (by linarith) unit_pos.le) hu
  have := (Near.round (h.nonneg ku)).trans h (by norm_num) hk (by rw [add_comm]; exact hu)
  rwa [add_comm] at this

theorem Near.mul_left {k x y : ℚ} (c : ℚ) (hc : 0 ≤ c) (h : Near k x y) : Near k (c * x) (c * y) := by
  refine ⟨mul_nonneg hc h.1, ?_, ?_⟩
  · have := mul_le_mul_of_nonneg_left h.2.1 hc
    linarith
  · have := mul_le_mul_of_nonneg_left h.2.2 hc
    linarith

theorem Near.inv {k x y : ℚ} (h : Near k x y) (hk : k * unit < 1) (hy : 0 < y) : Near k x⁻¹ y⁻¹ := by
  have hx := h.pos hk hy
  refine ⟨(inv_pos.2 hy).le, ?_, ?_⟩
  · rw [← div_eq_mul_inv, div_le_iff₀ hy, ← div_eq_inv_mul, le_div_iff₀ hx]
    exact h.2.2
  · rw [← div_eq_mul_inv, div_le_iff₀ hx, ← div_eq_inv_mul, le_div_iff₀ hy]
    exact h.2.1

theorem Near.div {k l x y x' y' : ℚ} (h : Near k x y) (h' : Near l x' y') (hk : 0 ≤ k) (hl : 0 ≤ l) (hu : (k + l) * unit < 1)
    (hy : 0 < y') : Near (k + l) (x / x') (y / y') := by
  have ku : k * unit < 1 := lt_of_le_of_lt (mul_le_mul_of_nonneg_right (by linarith) unit_pos.le) hu
  have lu : l * unit < 1 := lt_of_le_of_lt (mul_le_mul_of_nonneg_right (by linarith) unit_pos.le) hu
  have hx' := h'.pos lu hy
  have a : Near k (x / x') (y / x') := by
    have := h.mul_left x'⁻¹ (inv_pos.2 hx').le
    rwa [← div_eq_inv_mul, ← div_eq_inv_mul] at this
  have b : Near l (y / x') (y / y') := by
    have := (h'.inv lu hy).mul_left y h.1
    rwa [← div_eq_mul_inv, ← div_eq_mul_inv] at this
  exact a.trans b hk hl hu.le

/-- the error of a number of roundings, if they are not too many -/
theorem Near.error {k x y : ℚ} (h : Near k x y) (hk : 0 ≤ k) (hu : k * unit ≤ 1 / 2) : |x - y| ≤ y * (2 * k * unit) := by
  have hx := h.nonneg (by linarith)
  have h1 := h.2.1
  have h2 := h.2.2
  have e0 : 0 ≤ k * unit := mul_nonneg hk unit_pos.le
  have hy := h.1
  rw [abs_le]
  constructor
  · have := mul_nonneg e0 hy
    linarith
  · have hx2 : x ≤ 2 * y := by
      have := mul_le_mul_of_nonneg_right (show (1 : ℚ) / 2 ≤ 1 - k * unit by linarith) hx
      linarith
    have := mul_le_mul_of_nonneg_left hx2 e0
    linarith

end Verif.Proofs
