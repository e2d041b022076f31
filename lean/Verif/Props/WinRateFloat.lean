import Verif.Proofs.WinRateFloat
import Verif.Props.WinRate

/-! # The win-rate experiment in floats (C106) -/
namespace Verif.Props
open Verif.Py Verif.Model Verif.Spec Verif.Proofs

theorem near_pos_iff {k x y : ℚ} (h : Near k x y) (hk : k * unit < 1) : 0 < x ↔ 0 < y := by
  constructor
  · intro hx
    have := mul_pos (show 0 < 1 - k * unit by linarith) hx
    exact lt_of_lt_of_le this h.2.2
  · exact h.pos hk

theorem near_within {n : Nat} {x y : ℚ} (h : Near ((n : ℚ) + 1) x y) (hn : n ≤ 2 ^ 50) : |x - y| ≤ y * ((n + 1) / 2 ^ 52) := by
  have n0 : (0 : ℚ) ≤ n := by positivity
  have n1 : (n : ℚ) ≤ 2 ^ 50 := by exact_mod_cast hn
  have := h.error (by linarith) (by unfold unit; rw [mul_one_div, div_le_iff₀ (by positivity)]; linarith)
  have e : 2 * ((n : ℚ) + 1) * unit = (n + 1) / 2 ^ 52 := by unfold unit; ring
  rwa [e] at this

/-- **C106.** The floats the program counts with are near the exact shares: after `n` experiments the relative error is at most
    `(n + 1) / 2 ^ 52`, a share is above zero exactly if the exact one is, and a discard's shares are never more than its wins. -/
theorem C106_counters (hand : TileSet) (h : EnteredHand hand) (samples : List (List Tile)) (hs : RealSamples samples)
    (hn : samples.length ≤ 2 ^ 50) :
    (winTrialsF hand samples).win = (winTrials hand samples).win ∧
    (winTrialsF hand samples).total = (winTrials hand samples).total ∧
    (∀ k, |(winTrialsF hand samples).avg k - (winTrials hand samples).avg k| ≤
        (winTrials hand samples).avg k * ((samples.length + 1) / 2 ^ 52) ∧
      (0 < (winTrialsF hand samples).avg k ↔ 0 < (winTrials hand samples).avg k) ∧
      (winTrialsF hand samples).avg k ≤ ((winTrials hand samples).win k : ℚ)) ∧
    ∀ a b, |(winTrialsF hand samples).cond a b - (winTrials hand samples).cond a b| ≤
        (winTrials hand samples).cond a b * ((samples.length + 1) / 2 ^ 52) ∧
      (0 < (winTrialsF hand samples).cond a b ↔ 0 < (winTrials hand samples).cond a b) := by
  have n1 : (samples.length : ℚ) ≤ 2 ^ 50 := by exact_mod_cast hn
  have n0 : (0 : ℚ) ≤ samples.length := by positivity
  obtain ⟨a, b, c, d⟩ := winTrials_near h.1 h.2 hs (by linarith)
  have hu : ((samples.length : ℚ) + 1) * unit < 1 := by
    unfold unit; rw [mul_one_div, div_lt_one (by positivity)]; linarith
  refine ⟨a, b, fun k => ⟨near_within (c k) hn, near_pos_iff (c k) hu, ?_⟩, fun x y => ⟨near_within (d x y) hn, near_pos_iff (d x y) hu⟩⟩
  rw [← a]
  exact avgF_le h.1 h.2 hs 0 (by omega) .start k ⟨le_refl _, le_refl _⟩ (by simp [WinStats.start])

/-- one column in floats -/
theorem entry_near (hand : TileSet) (h : EnteredHand hand) (samples : List (List Tile)) (hs : RealSamples samples)
    (hpos : samples ≠ []) (hn : samples.length ≤ 2 ^ 50) (h0 : (winTrials hand samples).total ≠ 0) (r c : Kind)
    (hr : r ∈ heldList hand) (hc : c ∈ heldList hand) (hk : (heldList hand).length ≤ 34) :
    0 ≤ matrixEntryF (winTrialsF hand samples) samples.length (heldList hand) r c ∧
    |matrixEntryF (winTrialsF hand samples) samples.length (heldList hand) r c -
      matrixEntry (winTrials hand samples) samples.length (heldList hand) r c| ≤ (6 * samples.length + 100) / 2 ^ 53 := by
  have n1 : (samples.length : ℚ) ≤ 2 ^ 50 := by exact_mod_cast hn
  have n0 : (0 : ℚ) ≤ samples.length := by positivity
  obtain ⟨w1, w2, w3, w4⟩ := winTrials_near h.1 h.2 hs (by linarith)
  obtain ⟨f1, f2, f3, f4, f5⟩ := stats_facts hand h samples hs
  have hsh := (C63_shares hand h samples hs).2
  have hle := (C106_counters hand h samples hs hn).2.2.1
  generalize winTrials hand samples = st at *
  generalize winTrialsF hand samples = F at *
  have hlen : (0 : ℚ) < ((samples.length : Int) : ℚ) := by
    have : 0 < samples.length := List.length_pos_iff.2 hpos
    exact_mod_cast this
  generalize hN : (samples.length : ℚ) = N at *
  have hp34 : ((heldList hand).length : ℚ) ≤ 34 := by exact_mod_cast hk
  have p0 : (0 : ℚ) ≤ (heldList hand).length := by positivity
  generalize hP : ((heldList hand).length : ℚ) = P at *
  have small : ∀ x : ℚ, x ≤ 2 * N + P + 10 → x * unit ≤ 1 / 2 := by
    intro x hx
    unfold unit
    rw [mul_one_div, div_le_iff₀ (by positivity)]
    linarith
  have hT : (0 : ℚ) < st.total := by exact_mod_cast (show 0 < st.total by omega)
  have haT : F.avg c ≤ st.total := by
    have h1 := (hle c).2.2
    have h2 : (st.win c : ℚ) ≤ st.total := by exact_mod_cast f4 c hc
    linarith
  have haE : st.avg c / st.total ≤ 1 := by
    rw [div_le_one hT]
    have h1 := (hsh c).2
    have h2 : (st.win c : ℚ) ≤ st.total := by exact_mod_cast f4 c hc
    linarith
  -- the rate to itself
  have hself : Near (N + 2) (selfRateF F c) (st.avg c / st.total) := by
    unfold selfRateF
    rw [w2]
    have := ((w3 c).div (Near.refl hT.le) (by linarith) (le_refl _) (by have := small (N + 1 + 0) (by linarith); linarith) hT).rounded
      (by linarith) (by have := small (N + 1 + 0 + 1) (by linarith); linarith)
    have e : N + 1 + 0 + 1 = N + 2 := by ring
    rwa [e] at this
  have hself0 : 0 ≤ selfRateF F c := hself.nonneg (by have := small (N + 2) (by linarith); linarith)
  have hself1 : selfRateF F c ≤ 1 := by
    unfold selfRateF
    rw [w2, ← roundDouble_one]
    apply roundDouble_mono
    rw [div_le_one hT]
    exact haT
  have hselfE : 0 ≤ st.avg c / st.total := hself.1
  have dself : |selfRateF F c - st.avg c / st.total| ≤ 2 * (N + 2) * unit := by
    have h1 := hself.error (by linarith) (small _ (by linarith))
    have h2 := mul_le_mul_of_nonneg_right haE (show 0 ≤ 2 * (N + 2) * unit from mul_nonneg (by linarith) unit_pos.le)
    linarith
  have eb : (6 * N + 100) / 2 ^ 53 = (6 * N + 100) * unit := by unfold unit; ring
  rw [eb]
  unfold matrixEntryF matrixEntry
  by_cases hrc : r = c
  · simp only [if_pos hrc]
    refine ⟨hself0, le_trans dself (mul_le_mul_of_nonneg_right (by linarith) unit_pos.le)⟩
  · simp only [if_neg hrc]
    -- the raw entries
    have hraw : ∀ r, Near (N + 1) (rawEntryF F samples.length r c) (rawEntry st samples.length r c) := by
      intro r
      unfold rawEntryF rawEntry
      have hiff := near_pos_iff (w4 c r) (by have := small (N + 1) (by linarith); linarith)
      rw [w1]
      by_cases hx : 0 < st.cond c r ∧ 0 < st.win r
      · rw [if_pos hx, if_pos ⟨hiff.2 hx.1, hx.2⟩]
        exact w4 c r
      rw [if_neg hx, if_neg (fun hy => hx ⟨hiff.1 hy.1, hy.2⟩)]
      exact (Near.round (by positivity)).mono (by linarith) (by have := small (N + 1) (by linarith); linarith)
    have hrawpos : ∀ r, 0 < rawEntry st samples.length r c := by
      intro r
      unfold rawEntry
      split
      · rename_i hx; exact hx.1
      · positivity
    have hsum : Near (N + 1 + P) (columnSumF F samples.length (heldList hand) c)
        ((heldList hand).map (fun r => rawEntry st samples.length r c)).sum := by
      unfold columnSumF
      have := sum_near (k := N + 1) (by linarith) (fun r => rawEntryF F samples.length r c) (fun r => rawEntry st samples.length r c)
        hraw (heldList hand) 0
        (by rw [Nat.zero_add, hP]; have := small (N + 1 + P) (by linarith); linarith) 0 0 (Near.zero _)
      rw [Nat.zero_add, hP, zero_add] at this
      exact this
    have hle2 : rawEntry st samples.length r c ≤ ((heldList hand).map (fun r => rawEntry st samples.length r c)).sum :=
      le_sum_rat (fun k _ => (hrawpos k).le) hr
    have hS : 0 < ((heldList hand).map (fun r => rawEntry st samples.length r c)).sum := lt_of_lt_of_le (hrawpos r) hle2
    have hrawr := hraw r
    have hr0 := hrawpos r
    generalize rawEntry st samples.length r c = x at *
    generalize rawEntryF F samples.length r c = x' at *
    generalize ((heldList hand).map (fun r => rawEntry st samples.length r c)).sum = S at *
    generalize columnSumF F samples.length (heldList hand) c = S' at *
    generalize selfRateF F c = q' at *
    generalize st.avg c / st.total = q at *
    have hS' : 0 < S' := hsum.pos (by have := small (N + 1 + P) (by linarith); linarith) hS
    have hx' : 0 < x' := hrawr.pos (by have := small (N + 1) (by linarith); linarith) hr0
    -- what is left after the rate to itself
    have hD := Near.round (show 0 ≤ 1 - q' by linarith)
    have hD1 : roundDouble (1 - q') ≤ 1 := by
      rw [← roundDouble_one]
      apply roundDouble_mono
      rw [roundDouble_one]
      linarith
    have hD0 : 0 ≤ roundDouble (1 - q') := hD.nonneg (by have := small 1 (by linarith); linarith)
    have dD : |roundDouble (1 - q') - (1 - q)| ≤ (2 * N + 5) * unit := by
      have e1 := roundDouble_error (1 - q')
      rw [abs_of_nonneg (show 0 ≤ 1 - q' by linarith)] at e1
      have e2 : (1 - q') / 2 ^ 53 ≤ unit := by
        unfold unit
        rw [div_le_div_iff_of_pos_right (by positivity)]
        linarith
      have e3 := abs_sub_le (roundDouble (1 - q')) (1 - q') (1 - q)
      have e4 : |1 - q' - (1 - q)| = |q' - q| := by
        rw [show 1 - q' - (1 - q) = -(q' - q) by ring, abs_neg]
      rw [e4] at e3
      linarith
    generalize roundDouble (1 - q') = D at *
    -- the product
    have hw0 : 0 ≤ x / S := by positivity
    have hw1 : x / S ≤ 1 := by rw [div_le_one hS]; exact hle2
    have hratio : Near (2 * N + 2 + P) (x' / S') (x / S) := by
      have := hrawr.div hsum (by linarith) (by linarith) (by have := small (N + 1 + (N + 1 + P)) (by linarith); linarith) hS
      have e : N + 1 + (N + 1 + P) = 2 * N + 2 + P := by ring
      rwa [e] at this
    have hprod : Near (2 * N + 4 + P) (roundDouble (x' * roundDouble (D / S'))) (D * (x / S)) := by
      have a1 : Near 1 (roundDouble (D / S')) (D / S') := Near.round (by positivity)
      have a2 := a1.mul_left x' hx'.le
      have e1 : x' * (D / S') = D * (x' / S') := by ring
      rw [e1] at a2
      have a3 := a2.trans (hratio.mul_left D hD0) (by norm_num) (by linarith)
        (by have := small (1 + (2 * N + 2 + P)) (by linarith); linarith)
      have a4 := a3.rounded (by linarith) (by have := small (1 + (2 * N + 2 + P) + 1) (by linarith); linarith)
      have e2 : 1 + (2 * N + 2 + P) + 1 = 2 * N + 4 + P := by ring
      rwa [e2] at a4
    have hDw : D * (x / S) ≤ 1 := by
      calc D * (x / S) ≤ 1 * 1 := mul_le_mul hD1 hw1 hw0 (by norm_num)
        _ = 1 := by norm_num
    refine ⟨hprod.nonneg (by have := small (2 * N + 4 + P) (by linarith); linarith), ?_⟩
    have b1 := hprod.error (by linarith) (small _ (by linarith))
    have b2 : D * (x / S) * (2 * (2 * N + 4 + P) * unit) ≤ 2 * (2 * N + 4 + P) * unit := by
      have := mul_le_mul_of_nonneg_right hDw (show 0 ≤ 2 * (2 * N + 4 + P) * unit from mul_nonneg (by linarith) unit_pos.le)
      linarith
    have b3 : |D * (x / S) - x * ((1 - q) / S)| ≤ (2 * N + 5) * unit := by
      have e : D * (x / S) - x * ((1 - q) / S) = (D - (1 - q)) * (x / S) := by ring
      rw [e, abs_mul, abs_of_nonneg hw0]
      calc |D - (1 - q)| * (x / S) ≤ |D - (1 - q)| * 1 := mul_le_mul_of_nonneg_left hw1 (abs_nonneg _)
        _ ≤ _ := by rw [mul_one]; exact dD
    have b4 := abs_sub_le (roundDouble (x' * roundDouble (D / S'))) (D * (x / S)) (x * ((1 - q) / S))
    have b5 : 2 * (2 * N + 4 + P) * unit + (2 * N + 5) * unit ≤ (6 * N + 100) * unit := by
      rw [← add_mul]
      exact mul_le_mul_of_nonneg_right (by linarith) unit_pos.le
    linarith

theorem held_length {hand : TileSet} (hh : HandOK hand) : (heldList hand).length ≤ 34 := by
  have hs : heldList hand ⊆ allKinds := by
    intro k hk
    obtain ⟨e, he, rfl⟩ := List.mem_map.1 hk
    exact mem_allKinds.2 (hh.2.1 e he).1
  exact (List.subperm_of_subset (heldList_nodup hh) hs).length_le

/-- **C106.** In floats the matrix is computed, and fails, exactly when the exact one does; every entry is at least zero and within
    `(6 n + 100) / 2 ^ 53` of the exact one after `n` experiments. -/
theorem C106_matrix (hand : TileSet) (h : EnteredHand hand) (hne : hand ≠ []) (samples : List (List Tile)) (hs : RealSamples samples)
    (hn : samples.length ≤ 2 ^ 50) :
    (∀ x, conditionMatrixF (winTrialsF hand samples) samples.length (heldList hand) = .error x ↔
      conditionMatrix (winTrials hand samples) samples.length (heldList hand) = .error x) ∧
    ∀ m, conditionMatrix (winTrials hand samples) samples.length (heldList hand) = .ok m →
      ∃ f, conditionMatrixF (winTrialsF hand samples) samples.length (heldList hand) = .ok f ∧
        List.Forall₂ (List.Forall₂ (fun x y => 0 ≤ x ∧ |x - y| ≤ (6 * (samples.length : ℚ) + 100) / 2 ^ 53)) f m := by
  have ht := (C106_counters hand h samples hs hn).2.1
  constructor
  · intro x
    unfold conditionMatrixF conditionMatrix
    rw [ht]
    split
    · rfl
    · split
      · rfl
      · simp
  · intro m hm
    obtain ⟨hp, h0, rfl⟩ := matrix_ok hand hne samples m _ hm
    refine ⟨(heldList hand).map (fun row => (heldList hand).map (fun col =>
      matrixEntryF (winTrialsF hand samples) samples.length (heldList hand) row col)), ?_, ?_⟩
    · unfold conditionMatrixF
      rw [ht, if_neg (by simpa using hp), if_neg (fun e => h0 e.2)]
    · rw [List.forall₂_map_left_iff, List.forall₂_map_right_iff, List.forall₂_same]
      intro r hr
      rw [List.forall₂_map_left_iff, List.forall₂_map_right_iff, List.forall₂_same]
      intro c hc
      exact entry_near hand h samples hs hp hn h0 r c hr hc (held_length h.1)

theorem sum_within {l : List Kind} (f g : Kind → ℚ) (e : ℚ) (h : ∀ k ∈ l, |f k - g k| ≤ e) :
    (l.map f).sum ≤ (l.map g).sum + l.length * e := by
  induction l with
  | nil => simp
  | cons a l ih =>
    have h1 := (abs_le.1 (h a (by simp))).2
    have h2 := ih (fun k hk => h k (by simp [hk]))
    simp only [List.map_cons, List.sum_cons, List.length_cons]
    push_cast
    linarith

/-- **C106.** Every column of the matrix in floats adds up to at most one and an error of `(204 n + 3400) / 2 ^ 53`. -/
theorem C106_columns (hand : TileSet) (h : EnteredHand hand) (hne : hand ≠ []) (samples : List (List Tile)) (hs : RealSamples samples)
    (hn : samples.length ≤ 2 ^ 50) (f : List (List ℚ))
    (hf : conditionMatrixF (winTrialsF hand samples) samples.length (heldList hand) = .ok f) (j : Nat)
    (hj : j < (heldList hand).length) :
    f.length = (heldList hand).length ∧ (∀ row ∈ f, row.length = (heldList hand).length) ∧
    (f.map (fun row => row.getD j 0)).sum ≤ 1 + (204 * samples.length + 3400) / 2 ^ 53 := by
  have ht := (C106_counters hand h samples hs hn).2.1
  have hp : samples ≠ [] := by
    rintro rfl
    simp [conditionMatrixF] at hf
  have h0 : (winTrials hand samples).total ≠ 0 := by
    intro e
    unfold conditionMatrixF at hf
    rw [ht, if_neg (by simpa using hp), if_pos ⟨by simpa [heldList] using hne, e⟩] at hf
    cases hf
  have ef : f = (heldList hand).map (fun row => (heldList hand).map (fun col =>
      matrixEntryF (winTrialsF hand samples) samples.length (heldList hand) row col)) := by
    unfold conditionMatrixF at hf
    rw [ht, if_neg (by simpa using hp), if_neg (fun e => h0 e.2)] at hf
    exact (Except.ok.inj hf).symm
  subst ef
  refine ⟨by simp, ?_, ?_⟩
  · intro row hrow
    obtain ⟨r, hr, rfl⟩ := List.mem_map.1 hrow
    simp
  · have hc : (heldList hand)[j] ∈ heldList hand := List.getElem_mem hj
    rw [List.map_map]
    have e : ((heldList hand).map ((fun row : List ℚ => row.getD j 0) ∘ fun row => (heldList hand).map (fun col =>
        matrixEntryF (winTrialsF hand samples) samples.length (heldList hand) row col))) =
        (heldList hand).map (fun r => matrixEntryF (winTrialsF hand samples) samples.length (heldList hand) r (heldList hand)[j]) := by
      apply List.map_congr_left
      intro r _
      simp [List.getD_eq_getElem?_getD, hj]
    rw [e]
    have h1 := sum_within (fun r => matrixEntryF (winTrialsF hand samples) samples.length (heldList hand) r (heldList hand)[j])
      (fun r => matrixEntry (winTrials hand samples) samples.length (heldList hand) r (heldList hand)[j])
      ((6 * samples.length + 100) / 2 ^ 53) (l := heldList hand)
      (fun r hr => (entry_near hand h samples hs hp hn h0 r _ hr hc (held_length h.1)).2)
    have h2 := (column_sum hand h samples hs hp h0 _ hc).2.1
    have h3 : ((heldList hand).length : ℚ) ≤ 34 := by exact_mod_cast held_length h.1
    have h4 := mul_le_mul_of_nonneg_right h3 (show (0 : ℚ) ≤ (6 * samples.length + 100) / 2 ^ 53 by positivity)
    have h5 : (34 : ℚ) * ((6 * samples.length + 100) / 2 ^ 53) = (204 * samples.length + 3400) / 2 ^ 53 := by ring
    linarith

/-- instance: two experiments with one draw, of which one wins; the program's numbers are not the exact ones -/
example : EnteredHand exEntered ∧ RealSamples [[⟨.s,9,false⟩], [⟨.z,7,false⟩], [⟨.s,9,false⟩]] ∧ exEntered ≠ [] ∧
    (winTrialsF exEntered [[⟨.s,9,false⟩], [⟨.z,7,false⟩], [⟨.s,9,false⟩]]).win (.s, 1) = 2 ∧
    rawEntryF (winTrialsF exEntered [[⟨.s,9,false⟩], [⟨.z,7,false⟩], [⟨.s,9,false⟩]]) 3 (.m, 1) (.m, 2) ≠ 1 / 3 := by
  decide +kernel

end Verif.Props
