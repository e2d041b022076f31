import Verif.Model.FloatNumber
import Verif.Proofs.PageNumber
import Verif.Proofs.NumberText

/-! Decimals with few digits keep apart as floats. -/
namespace Verif.Proofs
open Verif.Py Verif.Model Verif.Spec

/-- different decimals of at most 15 digits have different floats -/
theorem roundDouble_distinct {m m' : ℤ} {k k' : ℕ} (hm : |m| < 10 ^ 15) (hm' : |m'| < 10 ^ 15)
    (h : roundDouble ((m : ℚ) / 10 ^ k) = roundDouble ((m' : ℚ) / 10 ^ k')) : (m : ℚ) / 10 ^ k = (m' : ℚ) / 10 ^ k' := by
  have key : ∀ {m m' : ℤ} {k k' : ℕ}, |m| < 10 ^ 15 → k' ≤ k →
      roundDouble ((m : ℚ) / 10 ^ k) = roundDouble ((m' : ℚ) / 10 ^ k') → (m : ℚ) / 10 ^ k = (m' : ℚ) / 10 ^ k' := by
    intro m m' k k' hm hk h
    by_contra hne
    have pk : (0 : ℚ) < 10 ^ k := by positivity
    have e' : (m' : ℚ) / 10 ^ k' = ((m' * 10 ^ (k - k') : ℤ) : ℚ) / 10 ^ k := by
      have : (10 : ℚ) ^ k = 10 ^ (k - k') * 10 ^ k' := by rw [← pow_add]; congr 1; omega
      rw [this]
      push_cast
      have p1 : (10 : ℚ) ^ (k - k') ≠ 0 := by positivity
      have p2 : (10 : ℚ) ^ k' ≠ 0 := by positivity
      field_simp
    rw [e'] at h hne
    generalize m' * 10 ^ (k - k') = z at h hne
    have hz : m ≠ z := fun e => hne (by rw [e])
    have e1 := roundDouble_error ((m : ℚ) / 10 ^ k)
    have e2 := roundDouble_error ((z : ℚ) / 10 ^ k)
    rw [← h] at e2
    generalize roundDouble ((m : ℚ) / 10 ^ k) = f at e1 e2
    have t1 := abs_sub_le ((m : ℚ) / 10 ^ k) f ((z : ℚ) / 10 ^ k)
    rw [abs_sub_comm _ f] at t1
    have s1 : |(m : ℚ) / 10 ^ k - (z : ℚ) / 10 ^ k| = |(m : ℚ) - z| / 10 ^ k := by rw [← sub_div, abs_div, abs_of_pos pk]
    have s2 : |(m : ℚ) / 10 ^ k| = |(m : ℚ)| / 10 ^ k := by rw [abs_div, abs_of_pos pk]
    have s3 : |(z : ℚ) / 10 ^ k| = |(z : ℚ)| / 10 ^ k := by rw [abs_div, abs_of_pos pk]
    rw [s1] at t1
    rw [s2] at e1
    rw [s3] at e2
    have t2 : |(m : ℚ) - z| / 10 ^ k ≤ (|(m : ℚ)| / 2 ^ 53 + |(z : ℚ)| / 2 ^ 53) / 10 ^ k := by
      have : (|(m : ℚ)| / 2 ^ 53 + |(z : ℚ)| / 2 ^ 53) / 10 ^ k = |(m : ℚ)| / 10 ^ k / 2 ^ 53 + |(z : ℚ)| / 10 ^ k / 2 ^ 53 := by ring
      rw [this]; linarith
    rw [div_le_div_iff_of_pos_right pk] at t2
    have t3 : |(z : ℚ)| ≤ |(m : ℚ) - z| + |(m : ℚ)| := by
      have := abs_sub_abs_le_abs_sub (z : ℚ) m
      rw [abs_sub_comm] at this
      linarith
    have t4 : (1 : ℚ) ≤ |(m : ℚ) - z| := by
      have : 1 ≤ |m - z| := Int.one_le_abs (by omega)
      exact_mod_cast this
    have t5 : |(m : ℚ)| < 10 ^ 15 := by exact_mod_cast hm
    rw [← add_div, le_div_iff₀ (by positivity)] at t2
    norm_num at t2 t5
    linarith
  rcases le_total k' k with hk | hk
  · exact key hm hk h
  · exact (key hm' hk h.symm).symm

/-- the order of decimals of at most 15 digits is that of their floats -/
theorem roundDouble_order {m m' : ℤ} {k k' : ℕ} (hm : |m| < 10 ^ 15) (hm' : |m'| < 10 ^ 15) :
    roundDouble ((m : ℚ) / 10 ^ k) < roundDouble ((m' : ℚ) / 10 ^ k') ↔ (m : ℚ) / 10 ^ k < (m' : ℚ) / 10 ^ k' := by
  constructor
  · intro h
    by_contra hc
    exact absurd (roundDouble_mono (not_lt.1 hc)) (not_le.2 h)
  · intro h
    refine lt_of_le_of_ne (roundDouble_mono h.le) (fun e => ?_)
    exact absurd (roundDouble_distinct hm hm' e) h.ne

theorem truncate_whole (q : ℚ) : (truncate q : ℚ) = q ↔ ∃ z : ℤ, q = z := by
  constructor
  · intro h
    exact ⟨_, h.symm⟩
  · rintro ⟨z, rfl⟩
    simp [truncate]

theorem truncate_int (z : ℤ) : truncate (z : ℚ) = z := by simp [truncate]

/-- what an entry of `number_list` is, for a number written with at most 15 digits -/
theorem numberEntry_spec {s : Str} {m : ℤ} {k : ℕ} (hm : |m| < 10 ^ 15) (h : NumberText s ((m : ℚ) / 10 ^ k)) :
    (∀ z : ℤ, (m : ℚ) / 10 ^ k = z → numberEntry s = .ok (.int z)) ∧
    ((∀ z : ℤ, (m : ℚ) / 10 ^ k ≠ z) → numberEntry s = .ok (.float (roundDouble ((m : ℚ) / 10 ^ k)))) := by
  obtain ⟨n, h1, h2⟩ := (parseNum_iff s _).2 h
  have hf : pyFloat s = .ok (roundDouble ((m : ℚ) / 10 ^ k)) := by
    unfold pyFloat
    simp only [h1, bind, Except.bind, pure, Except.pure, float_eq, h2]
  have pk : (1 : ℚ) ≤ 10 ^ k := one_le_pow₀ (by norm_num)
  have hq : |(m : ℚ) / 10 ^ k| < 10 ^ 15 := by
    rw [abs_div, abs_of_pos (show (0 : ℚ) < 10 ^ k by positivity)]
    have : |(m : ℚ)| < 10 ^ 15 := by exact_mod_cast hm
    rw [div_lt_iff₀ (by linarith)]
    nlinarith
  constructor
  · intro z hz
    have hzb : |z| ≤ 2 ^ 53 := by
      rw [hz] at hq
      have h3 : |z| < 10 ^ 15 := by exact_mod_cast hq
      omega
    unfold numberEntry
    simp only [hf, bind, Except.bind, hz, roundDouble_int hzb, truncate_int, if_true, pure, Except.pure]
  · intro hz
    have hno : ¬ ∃ z : ℤ, roundDouble ((m : ℚ) / 10 ^ k) = z := by
      rintro ⟨z, hz'⟩
      have hk : k ≠ 0 := by
        rintro rfl
        exact hz m (by simp)
      have hq' : |(m : ℚ) / 10 ^ k| < 10 ^ 14 := by
        rw [abs_div, abs_of_pos (show (0 : ℚ) < 10 ^ k by positivity)]
        have h5 : |(m : ℚ)| < 10 ^ 15 := by exact_mod_cast hm
        have p10 : (10 : ℚ) ≤ 10 ^ k := by
          calc (10 : ℚ) = 10 ^ 1 := by norm_num
            _ ≤ 10 ^ k := pow_le_pow_right₀ (by norm_num) (by omega)
        rw [div_lt_iff₀ (by linarith)]
        nlinarith
      have err := roundDouble_error ((m : ℚ) / 10 ^ k)
      have hzq : |(z : ℚ)| < 10 ^ 15 := by
        rw [← hz']
        have := abs_sub_abs_le_abs_sub (roundDouble ((m : ℚ) / 10 ^ k)) ((m : ℚ) / 10 ^ k)
        have h6 : |(m : ℚ) / 10 ^ k| / 2 ^ 53 ≤ |(m : ℚ) / 10 ^ k| := by
          apply div_le_self (abs_nonneg _)
          norm_num
        linarith
      have hzb : |z| < 10 ^ 15 := by exact_mod_cast hzq
      have hr : roundDouble ((z : ℚ) / 10 ^ 0) = roundDouble ((m : ℚ) / 10 ^ k) := by
        rw [pow_zero, div_one, roundDouble_int (by omega), hz']
      have := roundDouble_distinct hzb hm hr
      rw [pow_zero, div_one] at this
      exact hz z this.symm
    unfold numberEntry
    simp only [hf, bind, Except.bind]
    rw [if_neg (fun e => hno ((truncate_whole _).1 e))]
    rfl

/-- the value of an entry of `number_list` is the float nearest to the number written -/
theorem entry_value {s : Str} {m : ℤ} {k : ℕ} (hm : |m| < 10 ^ 15) (h : NumberText s ((m : ℚ) / 10 ^ k)) :
    ∃ a, numberEntry s = .ok a ∧ a.value = roundDouble ((m : ℚ) / 10 ^ k) := by
  obtain ⟨h1, h2⟩ := numberEntry_spec hm h
  by_cases hz : ∃ z : ℤ, (m : ℚ) / 10 ^ k = z
  · obtain ⟨z, hz⟩ := hz
    refine ⟨_, h1 z hz, ?_⟩
    have hq : |(z : ℚ)| < 10 ^ 15 := by
      rw [← hz, abs_div, abs_of_pos (show (0 : ℚ) < 10 ^ k by positivity)]
      have h3 : |(m : ℚ)| < 10 ^ 15 := by exact_mod_cast hm
      have pk : (1 : ℚ) ≤ 10 ^ k := one_le_pow₀ (by norm_num)
      rw [div_lt_iff₀ (by linarith)]
      nlinarith
    have hzb : |z| < 10 ^ 15 := by exact_mod_cast hq
    rw [hz, roundDouble_int (by omega)]
    rfl
  · refine ⟨_, h2 (fun z e => hz ⟨z, e⟩), rfl⟩

/-- a number between two equally near floats is rounded to the one with the even significand -/
theorem tie_even {q c : ℚ} (hc : NearestDouble q c) (hne : c ≠ roundDouble q) :
    ∃ m e : ℤ, m % 2 = 0 ∧ 2 ^ 52 ≤ |m| ∧ |m| ≤ 2 ^ 53 ∧ roundDouble q = m * (2 : ℚ) ^ e := by
  have pos : ∀ {q c : ℚ}, 0 < q → NearestDouble q c → c ≠ roundDouble q →
      ∃ m e : ℤ, m % 2 = 0 ∧ 2 ^ 52 ≤ |m| ∧ |m| ≤ 2 ^ 53 ∧ roundDouble q = m * (2 : ℚ) ^ e := by
    intro q c hq hc hne
    obtain ⟨m, e, h, h1, h2, h3, h4, h5, h6, h7⟩ := roundDouble_shape hq
    have hp : (0 : ℚ) < (2 : ℚ) ^ e := by positivity
    have two : (2 : ℚ) ≠ 0 := by norm_num
    have scale : ∀ x : ℚ, |x * (2 : ℚ) ^ e - q| = |x - q / (2 : ℚ) ^ e| * (2 : ℚ) ^ e := by
      intro x
      have : x * (2 : ℚ) ^ e - q = (x - q / (2 : ℚ) ^ e) * (2 : ℚ) ^ e := by field_simp
      rw [this, abs_mul, abs_of_pos hp]
    have heq : |c - q| = |(m : ℚ) * (2 : ℚ) ^ e - q| := by
      rw [← h]
      exact le_antisymm (hc.2 _ (isDouble_round q)) ((roundDouble_nearest q).2 c hc.1)
    refine ⟨m, e, ?_, by rw [abs_of_nonneg (by omega)]; exact_mod_cast h1, by rw [abs_of_nonneg (by omega)]; exact_mod_cast h2,
      by rw [h]; push_cast; rfl⟩
    -- the other float is a multiple of the same power of two
    have grid : ∀ z : ℤ, c = z * (2 : ℚ) ^ e → (m : ℤ) % 2 = 0 := by
      intro z hz
      rw [hz, scale, scale] at heq
      rcases h7 z (mul_right_cancel₀ hp.ne' heq).symm with h8 | h8
      · exfalso
        apply hne
        rw [hz, h, h8]
        push_cast
        rfl
      · omega
    obtain ⟨⟨m', e', hm', hce⟩, _⟩ := hc
    by_cases he : e ≤ e'
    · obtain ⟨k, hk⟩ := Int.eq_ofNat_of_zero_le (show 0 ≤ e' - e by omega)
      refine grid (m' * 2 ^ k) ?_
      have e'k : e' = (k : ℤ) + e := by omega
      rw [hce, e'k, zpow_add₀ two, zpow_natCast]
      push_cast
      ring
    · have hm : (m' : ℚ) ≤ 2 ^ 53 := by exact_mod_cast le_trans (le_abs_self m') hm'
      have hcl : c ≤ 2 ^ 52 * (2 : ℚ) ^ e := by
        rw [hce]
        calc (m' : ℚ) * (2 : ℚ) ^ e' ≤ 2 ^ 53 * (2 : ℚ) ^ e' := mul_le_mul_of_nonneg_right hm (by positivity)
          _ ≤ 2 ^ 53 * (2 : ℚ) ^ (e - 1) := mul_le_mul_of_nonneg_left (zpow_le_zpow_right₀ (by norm_num) (by omega)) (by positivity)
          _ = 2 ^ 52 * (2 : ℚ) ^ e := by rw [zpow_sub₀ two]; norm_num; ring
      have hlow : |(m : ℚ) * (2 : ℚ) ^ e - q| ≤ |((2 ^ 52 : ℤ) : ℚ) * (2 : ℚ) ^ e - q| := by
        rw [scale, scale]
        exact mul_le_mul_of_nonneg_right (h6 _) hp.le
      push_cast at hlow
      rw [← heq, abs_of_nonpos (by linarith), abs_of_nonpos (by linarith)] at hlow
      refine grid (2 ^ 52) ?_
      push_cast
      linarith
  rcases lt_trichotomy q 0 with h | h | h
  · have hc' : NearestDouble (-q) (-c) := by
      refine ⟨isDouble_neg hc.1, fun d hd => ?_⟩
      have := hc.2 (-d) (isDouble_neg hd)
      rw [show -c - -q = -(c - q) by ring, show d - -q = -(-d - q) by ring, abs_neg, abs_neg]
      exact this
    obtain ⟨m, e, a1, a2, a3, a4⟩ := pos (show 0 < -q by linarith) hc' (by rw [roundDouble_neg]; intro e; exact hne (neg_injective e))
    refine ⟨-m, e, by omega, by rwa [abs_neg], by rwa [abs_neg], ?_⟩
    rw [roundDouble_neg] at a4
    push_cast
    linarith
  · subst h
    exfalso
    apply hne
    have := hc.2 0 isDouble_zero
    rw [roundDouble_zero]
    rw [sub_zero, sub_zero, abs_zero] at this
    exact abs_eq_zero.1 (le_antisymm this (abs_nonneg _))
  · exact pos h hc hne

end Verif.Proofs
