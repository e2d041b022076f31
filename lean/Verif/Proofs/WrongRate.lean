import Verif.Proofs.CheckerAnalysis
import Verif.Proofs.CheckerOutcome
import Verif.Proofs.CheckerReport
import Verif.Proofs.Float
import Mathlib.Tactic.Linarith
import Mathlib.Tactic.Positivity

/-! The rate of a discard, computed with floats. -/
namespace Verif.Proofs
open Verif.Py Verif.Model Verif.Spec

theorem wrongRate_same {N : Int} {b y : RItem} {q : Rat} (h : wrongRate N b y = .ok q) (hs : y.step = b.step) :
    b.count ≠ 0 ∧ q = roundDouble (1 - roundDouble ((y.count : Rat) / b.count)) := by
  unfold wrongRate pyPow at h
  simp only [hs, Int.sub_self, Int.le_refl, if_true, Int.toNat_zero, pow_zero, bind, Except.bind, mul_one, pure, Except.pure] at h
  split at h
  · cases h
  · rename_i hc
    injection h with h
    exact ⟨by exact_mod_cast hc, h.symm⟩

theorem wrongRate_next {N : Int} {b y : RItem} {q : Rat} (h : wrongRate N b y = .ok q) (hs : y.step = b.step + 1) :
    b.count ≠ 0 ∧ N ≠ 0 ∧ q = roundDouble (1 - roundDouble ((y.count : Rat) / (b.count * N))) := by
  have hd : y.step - b.step = 1 := by omega
  unfold wrongRate pyPow at h
  simp only [hd, bind, Except.bind, pure, Except.pure] at h
  rw [if_pos (by omega)] at h
  simp only [Int.toNat_one, pow_one, if_pos (show (0 : Int) ≤ 1 by decide)] at h
  split at h
  · cases h
  · rename_i hc
    injection h with h
    refine ⟨?_, ?_, h.symm⟩
    · intro h'; apply hc; rw [h']; simp
    · intro h'; apply hc; rw [h']; simp

/-- `1 - x` with floats is at most 1 for `x` not negative, and not negative for `x` at most 1 -/
theorem rest_upper {x : ℚ} (h : 0 ≤ x) : roundDouble (1 - roundDouble x) ≤ 1 := by
  have h1 := roundDouble_mono h
  rw [roundDouble_zero] at h1
  have h2 := roundDouble_mono (show 1 - roundDouble x ≤ 1 by linarith)
  rwa [roundDouble_one] at h2

theorem rest_lower {x : ℚ} (h : x ≤ 1) : 0 ≤ roundDouble (1 - roundDouble x) := by
  have h1 := roundDouble_mono h
  rw [roundDouble_one] at h1
  have h2 := roundDouble_mono (show 0 ≤ 1 - roundDouble x by linarith)
  rwa [roundDouble_zero] at h2

/-- with floats a proper fraction with a denominator of at most `2 ^ 53` is not 1 -/
theorem rest_zero {y b : ℤ} (h0 : 0 < b) (h1 : y ≤ b) (hb : b ≤ 2 ^ 53) (hy : 0 ≤ y)
    (h : roundDouble (1 - roundDouble ((y : ℚ) / b)) = 0) : y = b := by
  rw [roundDouble_eq_zero] at h
  have hr : roundDouble ((y : ℚ) / b) = 1 := by linarith
  by_contra hc
  have hlt : y + 1 ≤ b := by omega
  have bq : (0 : ℚ) < b := by exact_mod_cast h0
  have err := roundDouble_error ((y : ℚ) / b)
  have yq : (0 : ℚ) ≤ y := by exact_mod_cast hy
  have xq : (0 : ℚ) ≤ (y : ℚ) / b := div_nonneg yq bq.le
  have hltq : (y : ℚ) + 1 ≤ b := by exact_mod_cast hlt
  have x1 : (y : ℚ) / b < 1 := by rw [div_lt_one bq]; linarith
  rw [hr, abs_of_nonneg xq, abs_of_nonneg (by linarith), le_div_iff₀ (by positivity)] at err
  have hbq : (b : ℚ) ≤ 2 ^ 53 := by exact_mod_cast hb
  have e : 1 - (y : ℚ) / b = (b - y) / b := by field_simp
  have h2 : (1 : ℚ) / b ≤ 1 - (y : ℚ) / b := by
    rw [e, div_le_div_iff_of_pos_right bq]; linarith
  have h3 : 1 ≤ (1 : ℚ) / b * 2 ^ 53 := by
    rw [div_mul_eq_mul_div, le_div_iff₀ bq]; linarith
  have h4 : (1 : ℚ) / b * 2 ^ 53 ≤ (1 - (y : ℚ) / b) * 2 ^ 53 := mul_le_mul_of_nonneg_right h2 (by positivity)
  linarith

/-- with floats `1 - x` is less than 1 for `x` at least `2 ^ -53` -/
theorem rest_below {x : ℚ} (h : 1 / 2 ^ 53 ≤ x) : roundDouble (1 - roundDouble x) < 1 := by
  have d1 : IsDouble (1 / 2 ^ 53) := ⟨1, -53, by norm_num, by norm_num⟩
  have d2 : IsDouble (1 - 1 / 2 ^ 53) := ⟨2 ^ 53 - 1, -53, by norm_num, by norm_num⟩
  have h1 := roundDouble_mono h
  rw [roundDouble_double d1] at h1
  have h2 := roundDouble_mono (show 1 - roundDouble x ≤ 1 - 1 / 2 ^ 53 by linarith)
  rw [roundDouble_double d2] at h2
  have : (0 : ℚ) < 1 / 2 ^ 53 := by positivity
  linarith

/-! ### How many useful tiles there can be -/

theorem rangeCount_bounds {inv : List InvElem} {t : Tile} (ht : RealTile t) {c : Int} (h : rangeCount inv t = .ok c) : 0 ≤ c ∧ c ≤ 4 := by
  obtain ⟨a, hr, _⟩ := range_counted t ht
  unfold rangeCount at h
  rw [hr] at h
  injection h with h
  have : ((((List.range (a + 4 - a).toNat).map (fun (i : Nat) => a + (i : Int))).filter
    (fun n => decide (InvElem.num n ∈ inv))).length : Nat) ≤ 4 := by
    refine le_trans (List.length_filter_le _ _) ?_
    simp
  simp only at h
  omega

theorem usefulCount_bounds {inv : List InvElem} {us : List Tile} (hu : ∀ t ∈ us, RealTile t) {c : Int}
    (h : usefulCount inv us = .ok c) : 0 ≤ c ∧ c ≤ 4 * us.length := by
  induction us generalizing c with
  | nil => cases h; decide
  | cons t us ih =>
    unfold usefulCount at h ih
    rw [List.mapM_cons] at h
    cases hr : rangeCount inv t with
    | error x => rw [hr] at h; cases h
    | ok r =>
      cases hl : us.mapM (rangeCount inv) with
      | error x => rw [hr, hl] at h; cases h
      | ok l =>
        rw [hr, hl] at h
        rw [hl] at ih
        injection h with h
        have h1 := rangeCount_bounds (hu t (by simp)) hr
        have h2 := ih (fun t ht => hu t (by simp [ht])) rfl
        rw [List.sum_cons] at h
        rw [List.length_cons]
        push_cast
        omega

/-- at most 136 tiles are useful -/
theorem item_count {inv : List InvElem} {x : RItem} (hx : ItemOK inv x) (hn : (x.useful.map Tile.view).Nodup) :
    0 ≤ x.count ∧ x.count ≤ 136 := by
  have h1 := usefulCount_bounds hx.2.1 hx.2.2
  have h34 : allKinds.length = 34 := by decide
  have h2 : (x.useful.map Tile.view).length ≤ allKinds.length := by
    refine (List.Nodup.subperm hn ?_).length_le
    intro k hk
    obtain ⟨t, ht, rfl⟩ := List.mem_map.1 hk
    exact mem_allKinds.2 (hx.2.1 t ht).1
  rw [List.length_map] at h2
  omega

end Verif.Proofs
