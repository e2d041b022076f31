import Verif.Proofs.Float
import Verif.Props.Checker
import Mathlib.Algebra.Order.Field.Rat

/-! When the report for a discard is made, and when it fails. -/
namespace Verif.Proofs
open Verif.Py Verif.Model Verif.Spec Verif.Props

theorem exists_mapM {α β : Type} {f : α → Except PyErr β} {l : List α} (h : ∀ x ∈ l, ∃ y, f x = .ok y) :
    ∃ r, l.mapM f = .ok r := by
  induction l with
  | nil => exact ⟨[], rfl⟩
  | cons a l ih =>
    obtain ⟨y, hy⟩ := h a (by simp)
    obtain ⟨r, hr⟩ := ih (fun x hx => h x (by simp [hx]))
    exact ⟨y :: r, by simp only [List.mapM_cons, bind_ok, pure_ok]; exact ⟨y, hy, r, hr, rfl⟩⟩

/-- the win types the checker looks at have a waiting step for hands of the right size -/
theorem checked_step {k : Nat} (hk : k ≤ 4) {w : Pattern} (hw : w ∈ checkedWins k) {h : Kind → Int} (h0 : ∀ k, 0 ≤ h k)
    (h4 : AtMostFour h) (hs : (13 : Int) - 3 * k ≤ sumK h) : ∃ n, IsStep true w h n ∧ n + 1 ≤ sumK h := by
  have key : ∀ b : Int, b ≤ sumK h → (∃ D, Legal w D ∧ Feasible true D ∧ deficit D h ≤ b) →
      ∃ n, IsStep true w h n ∧ n + 1 ≤ sumK h := by
    rintro b hb ⟨D, h1, h2, h3⟩
    obtain ⟨n, hn⟩ := exists_isStep (lim := true) h ⟨D, h1, h2⟩
    have := hn.2 D h1 h2
    exact ⟨n, hn, by omega⟩
  unfold checkedWins at hw
  rcases List.mem_cons.1 hw with rfl | hw'
  · exact key _ (by omega) (normal_bound (m := 4 - k) h0 h4 (by omega) (by omega))
  · by_cases hk0 : k = 0
    · rw [if_pos hk0] at hw'
      simp only [List.mem_cons, List.not_mem_nil, or_false] at hw'
      subst hw'
      exact key 7 (by omega) (pairs_bound h0 h4 (by omega))
    · rw [if_neg hk0] at hw'; simp at hw'

theorem heldKinds_invalid (l : List Int) (k : Kind) (hk : ¬ ValidKind k) : heldKinds l k = 0 := by
  unfold heldKinds
  have : l.filter (fun n => decide (CopyOf n k)) = [] := by
    rw [List.filter_eq_nil_iff]
    intro n _ hc
    simp only [decide_eq_true_eq] at hc
    exact hk (mem_allKinds.1 (List.mem_of_getElem? hc.2.2))
  rw [this]; rfl

/-- a hand of the right size is analysed without failure -/
theorem analyse_ok {iter : List Int → List Int} (hi : ∀ l, (iter l).Perm l) {hand : List Int} (hh : NumberHand hand)
    (inv : List InvElem) (melds : List Meld) (hk : meldCount melds ≤ 4)
    (hs : (13 : Int) - 3 * meldCount melds ≤ hand.length) : ∃ a, analyse iter hand inv melds = .ok a := by
  obtain ⟨t1, t2, t3, _, t5⟩ := analyse_hand hi hh.2
  have hsum := heldKinds_sum hh.2
  have h4 := heldKinds_four hh
  have h0 := heldKinds_nonneg hand
  have hone : ∀ (set : TileSet), HandOK set → content set = heldKinds hand → Counter.total set = (hand.length : Int) →
      ∀ w ∈ checkedWins (meldCount melds), ∃ l, oneWinReasoning (setSub inv (hand.map InvElem.num)) set w = .ok l := by
    intro set hok hc ht w hw
    obtain ⟨n, n1, n2⟩ := checked_step hk hw h0 h4 (by rw [hsum]; exact hs)
    refine oneWin_ok hok (n := n) (by rw [hc]; exact n1) (by rw [ht]; rw [hsum] at n2; exact n2)
  have hre : content (reSort (Counter.ofIter ((iter hand).map tileOf) : TileSet)) = heldKinds hand := by
    rw [content_reSort' t2, t3]
  have hret : Counter.total (reSort (Counter.ofIter ((iter hand).map tileOf) : TileSet)) = (hand.length : Int) := by
    have a := total_eq_sumK (HandOK.reSort' t2).1 (HandOK.reSort' t2).2.1
    rw [a]
    show sumK (content (reSort (Counter.ofIter ((iter hand).map tileOf) : TileSet))) = _
    rw [hre, hsum]
  by_cases hk0 : meldCount melds = 0
  · have hw : checkedWins (meldCount melds) = [.normal 1 4, .unique 7 []] := by rw [hk0]; rfl
    obtain ⟨l1, g1⟩ := hone _ t2 t3 t5 (.normal 1 4) (by rw [hw]; simp)
    obtain ⟨l2, g2⟩ := hone _ (HandOK.reSort' t2) hre hret (.unique 7 []) (by rw [hw]; simp)
    have hl := winReasonings_two.2 ⟨l1, l2, g1, g2, rfl⟩
    obtain ⟨_, o2, _⟩ := oneWin_spec t2 g1
    obtain ⟨_, p2, _⟩ := oneWin_spec (HandOK.reSort' t2) g2
    have hm : ∃ m, (zipLists [l1, l2]).mapM (reasoningMerge (setSub inv (hand.map InvElem.num))) = .ok m := by
      rw [zipLists_two]
      apply exists_mapM
      intro z hz
      obtain ⟨p, hp, rfl⟩ := List.mem_map.1 hz
      have hp' := List.of_mem_zip hp
      refine (C54_returns _ _ ?_).2 (by simp)
      intro y hy
      simp only [List.mem_cons, List.not_mem_nil, or_false] at hy
      rcases hy with rfl | rfl
      · exact (o2 _ hp'.1).2.1
      · exact (p2 _ hp'.2).2.1
    obtain ⟨m, hm⟩ := hm
    exact ⟨_, analyse_of hk t1 (by rw [hw]; exact hl) hm⟩
  · have hw : checkedWins (meldCount melds) = [.normal 1 (4 - meldCount melds)] := by
      unfold checkedWins; rw [if_neg hk0]
    obtain ⟨l1, g1⟩ := hone _ t2 t3 t5 (.normal 1 (4 - meldCount melds)) (by rw [hw]; simp)
    have hl := winReasonings_one.2 ⟨l1, g1, rfl⟩
    obtain ⟨_, o2, _⟩ := oneWin_spec t2 g1
    exact ⟨_, analyse_of hk t1 (by rw [hw]; exact hl) (merge_ones o2)⟩

/-- there is nothing to choose exactly when the hand wins already -/
theorem merged_nil_iff {iter : List Int → List Int} (hi : ∀ l, (iter l).Perm l) {hand : List Int} (hh : NumberHand hand)
    {inv : List InvElem} {melds : List Meld} (hs : (hand.length : Int) = 14 - 3 * meldCount melds) {a : Analysis}
    (ha : analyse iter hand inv melds = .ok a) :
    a.merged = [] ↔ ∃ w ∈ checkedWins (meldCount melds), Wins w (heldKinds hand) := by
  have h4 := heldKinds_four hh
  have h0 := heldKinds_nonneg hand
  have hv := heldKinds_invalid hand
  have hsum := heldKinds_sum hh.2
  by_cases hk0 : meldCount melds = 0
  · obtain ⟨l1, l2, o1, p1, hlen, _⟩ := C57_concealed iter hi hand hh.2 inv melds hk0 a ha
    have e1 := analyses_nil_iff h0 hv h4 (by rw [hsum, hs, hk0]; rfl) o1
    have e2 := analyses_nil_iff h0 hv h4 (by rw [hsum, hs, hk0]; rfl) p1
    have hw : checkedWins (meldCount melds) = [.normal 1 4, .unique 7 []] := by rw [hk0]; rfl
    rw [hw]
    simp only [List.mem_cons, List.not_mem_nil, or_false, exists_eq_or_imp, exists_eq_left]
    rw [← e1, ← e2, ← List.length_eq_zero_iff, ← List.length_eq_zero_iff, ← List.length_eq_zero_iff, hlen]
    omega
  · obtain ⟨hk4, o1⟩ := C57_open iter hi hand hh.2 inv melds (by omega) a ha
    have e1 := analyses_nil_iff h0 hv h4 (by rw [hsum, hs]; simp only [Pattern.needCount]; omega) o1
    have hw : checkedWins (meldCount melds) = [.normal 1 (4 - meldCount melds)] := by
      unfold checkedWins; rw [if_neg hk0]
    rw [hw, e1]
    simp

theorem usefulCount_empty {us : List Tile} {c : Int} (h : usefulCount [] us = .ok c) : c = 0 := by
  unfold usefulCount at h
  simp only [bind_ok, pure_ok] at h
  obtain ⟨l, h1, h2⟩ := h
  subst h2
  have : ∀ x ∈ l, x = 0 := by
    intro x hx
    obtain ⟨t, _, ht⟩ := mapM_inv _ h1 x hx
    unfold rangeCount at ht
    simp only [bind_ok, pure_ok] at ht
    obtain ⟨r, _, h3⟩ := ht
    rw [← h3]
    simp
  clear h1
  induction l with
  | nil => rfl
  | cons x l ih =>
    rw [List.sum_cons, this x (by simp), ih (fun y hy => this y (by simp [hy]))]
    rfl

/-- the wrong rate can be computed exactly when the best count is not zero -/
theorem wrongRate_outcome {N : Int} {best your : RItem} (hN : N = 0 → best.count = 0) :
    (best.count = 0 → wrongRate N best your = .error .zeroDivision) ∧
    (best.count ≠ 0 → ∃ q, wrongRate N best your = .ok q) := by
  unfold wrongRate pyPow
  constructor
  · intro hb
    by_cases hd : 0 ≤ your.step - best.step
    · rw [if_pos hd]; simp [hb, bind, Except.bind, roundDouble_zero]
    · by_cases hN0 : N = 0
      · rw [if_neg hd, if_pos hN0]; rfl
      · rw [if_neg hd, if_neg hN0]; simp [hb, bind, Except.bind, roundDouble_zero]
  · intro hb
    have hN0 : N ≠ 0 := fun h => hb (hN h)
    have hNq : (N : Rat) ≠ 0 := by exact_mod_cast hN0
    have hbq : (best.count : Rat) ≠ 0 := by exact_mod_cast hb
    by_cases hd : 0 ≤ your.step - best.step
    · have : (best.count : Rat) * (N : Rat) ^ (your.step - best.step).toNat ≠ 0 := mul_ne_zero hbq (pow_ne_zero _ hNq)
      simp only [hd, if_true, bind, Except.bind, if_neg this]
      exact ⟨_, rfl⟩
    · have : roundDouble ((best.count : Rat) * roundDouble (1 / (N : Rat) ^ (-(your.step - best.step)).toNat)) ≠ 0 := by
        rw [Ne, roundDouble_eq_zero]
        refine mul_ne_zero hbq ?_
        rw [Ne, roundDouble_eq_zero]
        exact one_div_ne_zero (pow_ne_zero _ hNq)
      simp only [hd, if_false, hN0, bind, Except.bind, if_neg this]
      exact ⟨_, rfl⟩

/-- the chosen discard can be analysed -/
theorem your_ok {iter : List Int → List Int} (hi : ∀ l, (iter l).Perm l) {hand : List Int} (hh : NumberHand hand)
    {inv : List InvElem} {melds : List Meld} (hs : (hand.length : Int) = 14 - 3 * meldCount melds) {a : Analysis}
    (ha : analyse iter hand inv melds = .ok a) {n : Int} (hm : n ∈ hand) :
    ∃ items your, a.wins.mapM (reasoningDiscards a.invisible a.hand (tileOf n)) = .ok items ∧
      reasoningMerge a.invisible items = .ok your := by
  obtain ⟨tiles, lists, hk, ht, h1, h2, h3, _, _⟩ := analyse_inv ha
  obtain ⟨t1, t2, t3, t4, _⟩ := analyse_hand hi hh.2
  rw [t1] at ht
  cases ht
  have hc : content a.hand = heldKinds hand := by rw [h2, content_reSort' t2, t3]
  have hok : HandOK a.hand := by rw [h2]; exact HandOK.reSort' t2
  obtain ⟨_, s2, s3, s4⟩ := tileOf_spec (hh.2 n hm)
  have hpos : 0 < content a.hand (tileOf n).view := by
    rw [hc]
    unfold heldKinds
    have : n ∈ hand.filter (fun m => decide (CopyOf m (tileOf n).view)) := by
      rw [List.mem_filter]; exact ⟨hm, by simpa using (s3 _).1 rfl⟩
    have := List.length_pos_of_mem this
    omega
  have hok' : HandOK (TileSet.sub a.hand (Counter.ofIter [tileOf n])) := HandOK_sub hok (HandOK_ofIter (by simpa using s2))
  have hcm := content_sub_one hok (tileOf n) hpos
  have hv := s2.1
  have hsum : sumK (minus (heldKinds hand) (tileOf n).view) = hand.length - 1 := by
    have := heldKinds_sum hh.2
    have e : sumK (minus (heldKinds hand) (tileOf n).view) = sumK (fun k => heldKinds hand k - (if k = (tileOf n).view then 1 else 0)) :=
      sumK_congr (fun k _ => by unfold minus; split <;> omega)
    rw [e, sumK_sub, show sumK (fun k => heldKinds hand k) = hand.length from this]
    rw [show sumK (fun k => if k = (tileOf n).view then (1 : Int) else 0) = 1 from sumK_single hv]
  have hitems : ∃ items, a.wins.mapM (reasoningDiscards a.invisible a.hand (tileOf n)) = .ok items := by
    apply exists_mapM
    intro w hw
    rw [h3] at hw
    have hmn : ∀ k, 0 ≤ minus (heldKinds hand) (tileOf n).view k := by
      intro k
      unfold minus
      have := heldKinds_nonneg hand k
      rw [hc] at hpos
      split
      · rename_i hk; rw [hk]; omega
      · exact this
    have hm4 : AtMostFour (minus (heldKinds hand) (tileOf n).view) := by
      intro k
      have := heldKinds_four hh k
      unfold minus
      split <;> omega
    obtain ⟨m, m1, m2⟩ := checked_step hk hw hmn hm4 (by rw [hsum]; omega)
    rw [← hc, ← hcm] at m1
    have ht : Counter.total (TileSet.sub a.hand (Counter.ofIter [tileOf n])) = hand.length - 1 := by
      rw [total_eq_sumK hok'.1 hok'.2.1]
      show sumK (content _) = _
      rw [hcm, hc, hsum]
    obtain ⟨u, hu⟩ := heurWaitingUseful_ok (s := 0) hok' m1 (by rw [ht]; rw [hsum] at m2; exact m2)
    obtain ⟨_, _, _, r4, _⟩ := heurWaitingUseful_eq hok' hu
    refine ⟨itemOf a.invisible (tileOf n, m, u), ?_⟩
    unfold reasoningDiscards
    rw [hu]
    exact convert_ok r4
  obtain ⟨items, hit⟩ := hitems
  have hreal : ∀ y ∈ items, ∀ t ∈ y.useful, RealTile t := by
    intro y hy
    obtain ⟨w, _, hw⟩ := mapM_inv _ hit y hy
    exact (discard_item hok s2 hpos hw).2.2.2.2.1.2.1
  have hne : items ≠ [] := by
    intro hnil
    have hl := (mapM_forall hit).length_eq
    rw [h3, hnil] at hl
    unfold checkedWins at hl
    simp at hl
  obtain ⟨your, hy⟩ := (C54_returns a.invisible items hreal).2 hne
  exact ⟨items, your, hit, hy⟩

end Verif.Proofs
