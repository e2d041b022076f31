import Verif.Model.WinRateFloat
import Verif.Proofs.WinRate
import Verif.Proofs.Near

/-! The counters of the win-rate experiment in floats, and how near they are to the exact ones. -/
namespace Verif.Proofs
open Verif.Py Verif.Model Verif.Spec

theorem foldl_bumpF (l : List Kind) (x : ℚ) (f : Kind → ℚ) (hn : l.Nodup) (k : Kind) :
    l.foldl (fun f k => bumpF f k x) f k = if k ∈ l then roundDouble (f k + x) else f k := by
  induction l generalizing f with
  | nil => simp
  | cons a l ih =>
    simp only [List.nodup_cons] at hn
    simp only [List.foldl_cons]
    rw [ih _ hn.2]
    by_cases hk : k = a
    · subst hk; simp [bumpF, hn.1]
    · simp [bumpF, hk]

/-- the float a winner gets -/
def shareF (n : Nat) : ℚ := roundDouble (1 / (n : ℚ))

theorem shareLoopF_eq {set : List Kind} (hn : set.Nodup) (f : Kind → ℚ) (k : Kind) :
    shareLoopF set f k = if k ∈ set then roundDouble (f k + shareF set.length) else f k :=
  foldl_bumpF set _ f hn k

theorem condLoopF_eq {set : List Kind} (hs : set.Nodup) (l : List Kind) (c : Kind → Kind → ℚ) (hn : l.Nodup) (a b : Kind) :
    l.foldl (fun (c : Kind → Kind → ℚ) n => fun a => if a = n then shareLoopF set (c a) else c a) c a b =
      if a ∈ l ∧ b ∈ set then roundDouble (c a b + shareF set.length) else c a b := by
  induction l generalizing c with
  | nil => simp
  | cons x l ih =>
    simp only [List.nodup_cons] at hn
    simp only [List.foldl_cons]
    rw [ih _ hn.2]
    by_cases hk : a = x
    · subst hk
      simp [hn.1, shareLoopF_eq hs]
    · simp [hk]

open Classical in
/-- one experiment in floats -/
theorem winTrialF_eq {hand : TileSet} (hh : HandOK hand) (hp : ∀ e ∈ hand, 0 < e.2) (st : WinStats)
    {ts : List Tile} (ht : ∀ t ∈ ts, RealTile t) :
    winTrialF hand st ts =
      { win := fun k => st.win k + (if k ∈ winners hand ts then 1 else 0)
        total := st.total + (winners hand ts).length
        avg := fun k => if k ∈ winners hand ts then roundDouble (st.avg k + shareF (winners hand ts).length) else st.avg k
        cond := fun a b => if (a ∈ heldList hand ∧ a ∉ winners hand ts) ∧ b ∈ winners hand ts
          then roundDouble (st.cond a b + shareF (winners hand ts).length) else st.cond a b } := by
  have hm : (possibleDiscard hand).map (fun d => d.1.view) = heldList hand := by
    simp [possibleDiscard, heldList]
  have hW : ((possibleDiscard hand).filter
      (fun d => anyPattern winPatterns (TileSet.add d.2 (Counter.ofIter ts)))).map (fun d => d.1.view) =
      winners hand ts := by
    unfold possibleDiscard winners heldList
    rw [List.filter_map, List.filter_map, List.map_map]
    show List.map (fun e : Tile × Int => e.1.view) _ = _
    congr 1
    apply List.filter_congr
    intro e he
    have := discard_completes hh he (hp e he) ht
    simp only [Function.comp]
    rw [Bool.eq_iff_iff, this]
    simp
  unfold winTrialF
  simp only
  rw [discardLoop_eq _ _ _ _ _ (by rw [hm]; exact heldList_nodup hh) (by simp)]
  simp only [hW, List.nil_append, hm]
  have hnd := winners_nodup hh ts
  congr 1
  · funext k; exact shareLoopF_eq hnd _ k
  · funext a b
    rw [condLoopF_eq hnd _ _ ((heldList_nodup hh).filter _)]
    simp [List.mem_filter]

theorem share_near {n : Nat} : Near 1 (shareF n) (1 / (n : ℚ)) := Near.round (by positivity)

/-- one more share -/
theorem near_share {m n : Nat} {x y : ℚ} (h : Near ((m : ℚ) + 1) x y) (hm : ((m : ℚ) + 2) * unit ≤ 1) (b : Prop) [Decidable b] :
    Near (((m + 1 : Nat) : ℚ) + 1) (if b then roundDouble (x + shareF n) else x) (y + (if b then 1 / (n : ℚ) else 0)) := by
  have m0 : (0 : ℚ) ≤ m := by positivity
  have hu : ((m : ℚ) + 1) * unit ≤ 1 := le_trans (mul_le_mul_of_nonneg_right (by linarith) unit_pos.le) hm
  have e : ((m + 1 : Nat) : ℚ) + 1 = (m : ℚ) + 1 + 1 := by push_cast; ring
  rw [e]
  by_cases hb : b
  · rw [if_pos hb, if_pos hb]
    exact (h.add (share_near.mono (by linarith) hu)).rounded (by linarith) (by linarith)
  · rw [if_neg hb, if_neg hb, add_zero]
    exact h.mono (by linarith) (by linarith)

/-- the counters in floats against the exact ones, from any two that are near -/
theorem trials_near {hand : TileSet} (hh : HandOK hand) (hp : ∀ e ∈ hand, 0 < e.2) {samples : List (List Tile)}
    (ht : ∀ ts ∈ samples, ∀ t ∈ ts, RealTile t) (m : Nat) (hm : ((m + samples.length : Nat) : ℚ) + 1 ≤ 2 ^ 53) (f st : WinStats)
    (h1 : f.win = st.win) (h2 : f.total = st.total) (h3 : ∀ k, Near ((m : ℚ) + 1) (f.avg k) (st.avg k))
    (h4 : ∀ a b, Near ((m : ℚ) + 1) (f.cond a b) (st.cond a b)) :
    let F := samples.foldl (winTrialF hand) f
    let S := samples.foldl (winTrial hand) st
    F.win = S.win ∧ F.total = S.total ∧ (∀ k, Near (((m + samples.length : Nat) : ℚ) + 1) (F.avg k) (S.avg k)) ∧
      ∀ a b, Near (((m + samples.length : Nat) : ℚ) + 1) (F.cond a b) (S.cond a b) := by
  induction samples generalizing m f st with
  | nil => exact ⟨h1, h2, h3, h4⟩
  | cons ts l ih =>
    simp only [List.foldl_cons, List.length_cons]
    have hle : ((m : ℚ) + 2) * unit ≤ 1 := by
      simp only [List.length_cons] at hm
      push_cast at hm
      have : (0 : ℚ) ≤ l.length := by positivity
      unfold unit
      rw [mul_one_div, div_le_one (by positivity)]
      linarith
    have e : m + (l.length + 1) = (m + 1) + l.length := by omega
    rw [e]
    have hts := ht ts (by simp)
    apply ih (fun x hx => ht x (by simp [hx])) (m + 1) (by rw [← e]; exact hm)
    · rw [winTrialF_eq hh hp f hts, winTrial_eq hh hp st hts, h1]
    · rw [winTrialF_eq hh hp f hts, winTrial_eq hh hp st hts, h2]
    · intro k
      rw [winTrialF_eq hh hp f hts, winTrial_eq hh hp st hts]
      exact near_share (h3 k) hle _
    · intro a b
      rw [winTrialF_eq hh hp f hts, winTrial_eq hh hp st hts]
      exact near_share (h4 a b) hle _

theorem winTrials_near {hand : TileSet} (hh : HandOK hand) (hp : ∀ e ∈ hand, 0 < e.2) {samples : List (List Tile)}
    (ht : ∀ ts ∈ samples, ∀ t ∈ ts, RealTile t) (hm : (samples.length : ℚ) + 1 ≤ 2 ^ 53) :
    (winTrialsF hand samples).win = (winTrials hand samples).win ∧ (winTrialsF hand samples).total = (winTrials hand samples).total ∧
      (∀ k, Near ((samples.length : ℚ) + 1) ((winTrialsF hand samples).avg k) ((winTrials hand samples).avg k)) ∧
      ∀ a b, Near ((samples.length : ℚ) + 1) ((winTrialsF hand samples).cond a b) ((winTrials hand samples).cond a b) := by
  have := trials_near hh hp ht 0 (by rw [Nat.zero_add]; exact hm) .start .start rfl rfl
    (fun k => Near.zero _) (fun a b => Near.zero _)
  simp only [Nat.zero_add] at this
  exact this

/-- a share is at most one, also as a float -/
theorem shareF_le {n : Nat} : shareF n ≤ 1 := by
  unfold shareF
  rw [← roundDouble_one]
  apply roundDouble_mono
  rcases Nat.eq_zero_or_pos n with rfl | h
  · simp
  · rw [roundDouble_one, div_le_one (by exact_mod_cast h)]
    exact_mod_cast h

/-- the shares of a discard are at most its wins, also in floats -/
theorem avgF_le {hand : TileSet} (hh : HandOK hand) (hp : ∀ e ∈ hand, 0 < e.2) {samples : List (List Tile)}
    (ht : ∀ ts ∈ samples, ∀ t ∈ ts, RealTile t) (m : Nat) (hm : m + samples.length ≤ 2 ^ 53) (f : WinStats) (k : Kind)
    (h0 : 0 ≤ f.win k ∧ f.win k ≤ m) (h1 : f.avg k ≤ f.win k) :
    (samples.foldl (winTrialF hand) f).avg k ≤ (samples.foldl (winTrialF hand) f).win k := by
  induction samples generalizing m f with
  | nil => exact h1
  | cons ts l ih =>
    simp only [List.foldl_cons]
    simp only [List.length_cons] at hm
    have hts := ht ts (by simp)
    apply ih (fun x hx => ht x (by simp [hx])) (m + 1) (by omega)
    · rw [winTrialF_eq hh hp f hts]
      simp only
      split <;> constructor <;> push_cast <;> omega
    · rw [winTrialF_eq hh hp f hts]
      simp only
      split
      · have e : roundDouble (((f.win k + 1 : Int)) : ℚ) = ((f.win k + 1 : Int) : ℚ) :=
          roundDouble_int (by rw [abs_of_nonneg (by omega)]; omega)
        rw [← e]
        apply roundDouble_mono
        push_cast
        have := shareF_le (n := (winners hand ts).length)
        linarith
      · simpa using h1

/-- the sum of a column -/
theorem sum_near {k : ℚ} (hk : 0 ≤ k) (g g' : Kind → ℚ) (h : ∀ r, Near k (g r) (g' r)) (l : List Kind) (j : Nat)
    (hu : (k + ((j + l.length : Nat) : ℚ)) * unit ≤ 1) (s s' : ℚ) (hs : Near (k + j) s s') :
    Near (k + ((j + l.length : Nat) : ℚ)) (l.foldl (fun s r => roundDouble (s + g r)) s) (s' + (l.map g').sum) := by
  induction l generalizing j s s' with
  | nil => simpa using hs
  | cons a l ih =>
    simp only [List.foldl_cons, List.map_cons, List.sum_cons, List.length_cons]
    have e : j + (l.length + 1) = (j + 1) + l.length := by omega
    rw [e, ← add_assoc]
    simp only [List.length_cons] at hu
    rw [e] at hu
    have j0 : (0 : ℚ) ≤ j := by positivity
    have l0 : (0 : ℚ) ≤ l.length := by positivity
    have hu' : (k + j + 1) * unit ≤ 1 := by
      push_cast at hu
      refine le_trans (mul_le_mul_of_nonneg_right ?_ unit_pos.le) hu
      linarith
    apply ih (j + 1) hu
    have := (hs.add ((h a).mono (show k ≤ k + j by linarith)
      (le_trans (mul_le_mul_of_nonneg_right (by linarith) unit_pos.le) hu'))).rounded (by linarith) hu'
    push_cast
    rw [← add_assoc]
    exact this

end Verif.Proofs
