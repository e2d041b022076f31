import Verif.Props.Waiting
import Verif.Proofs.Bounds

/-!
C79: the distance from a hand of pairs has a closed form.
-/
namespace Verif.Props
open Verif.Py Verif.Model Verif.Spec Verif.Proofs

/-- How many of the 34 kinds the hand holds at least `c` copies of. -/
def kindsWith (c : Int) (h : Kind → Int) : Int := ((allKinds.filter (fun k => decide (c ≤ h k))).length : Int)

/-- the kinds of a list satisfying a test are at most the list and at most all kinds satisfying it. -/
theorem filter_le {T : List Kind} (hT : T.Nodup) (hv : ∀ k ∈ T, ValidKind k) (p : Kind → Bool) :
    (T.filter p).length ≤ T.length ∧ (T.filter p).length ≤ (allKinds.filter p).length := by
  refine ⟨List.length_filter_le _ _, ?_⟩
  refine List.Subperm.length_le (List.subperm_of_subset (hT.filter _) (fun k hk => ?_))
  obtain ⟨a, b⟩ := List.mem_filter.1 hk
  exact List.mem_filter.2 ⟨mem_allKinds.2 (hv k a), b⟩

theorem deficit_pairs (T : List Kind) (hT : T.Nodup) (hv : ∀ k ∈ T, ValidKind k) {h : Kind → Int} (h0 : ∀ k, 0 ≤ h k) :
    deficit (T.map .pair) h =
      2 * T.length - ((T.filter (fun k => decide (1 ≤ h k))).length : Int) - ((T.filter (fun k => decide (2 ≤ h k))).length : Int) := by
  unfold deficit
  have e1 : sumK (fun k => max 0 (need (T.map .pair) k - h k)) =
      sumK (fun k => (if k ∈ T then (max 0 (2 - h k)) else 0)) := by
    refine sumK_congr (fun k _ => ?_)
    rw [need_map_pair T hT]
    have := h0 k
    split <;> omega
  rw [e1]
  clear e1
  induction T with
  | nil => simp [sumK_zero]
  | cons a T ih =>
    obtain ⟨ha, hT'⟩ := List.nodup_cons.1 hT
    have hva := hv a (by simp)
    have ih := ih hT' (fun k hk => hv k (by simp [hk]))
    have e2 : sumK (fun k => (if k ∈ a :: T then (max 0 (2 - h k)) else 0)) =
        sumK (fun k => (if k ∈ T then (max 0 (2 - h k)) else 0)) + max 0 (2 - h a) := by
      have e3 : sumK (fun k => max 0 (2 - h a) * (if k = a then 1 else 0)) = max 0 (2 - h a) := by
        rw [sumK_mul, sumK_single hva]; omega
      rw [← e3, ← sumK_add]
      refine sumK_congr (fun k _ => ?_)
      by_cases hk : k = a
      · subst hk; simp [ha]
      · simp [hk]
    rw [e2, ih]
    have := h0 a
    simp only [List.filter_cons, List.length_cons]
    by_cases c1 : 1 ≤ h a <;> by_cases c2 : 2 ≤ h a <;> simp [c1, c2] <;> omega

/-- there is a choice of `p` kinds that contains as many kinds at hand, and as many pairs, as possible. -/
theorem best_choice (h : Kind → Int) (p : Nat) (hp : p ≤ 34) :
    ∃ T : List Kind, T.Nodup ∧ (∀ k ∈ T, ValidKind k) ∧ T.length = p ∧
      ((T.filter (fun k => decide (1 ≤ h k))).length : Int) = min (p : Int) (kindsWith 1 h) ∧
      ((T.filter (fun k => decide (2 ≤ h k))).length : Int) = min (p : Int) (kindsWith 2 h) := by
  have key : ∀ (q : Kind → Bool) (A B : List Kind), (∀ k ∈ A, q k = true) → (∀ k ∈ B, q k = false) →
      (((A ++ B).take p).filter q).length = min p A.length := by
    intro q A B hA hB
    rw [List.take_append, List.filter_append]
    have e1 : (A.take p).filter q = A.take p := List.filter_eq_self.2 (fun k hk => hA k (List.mem_of_mem_take hk))
    have e2 : (B.take (p - A.length)).filter q = [] :=
      List.filter_eq_nil_iff.2 (fun k hk => by simp [hB k (List.mem_of_mem_take hk)])
    rw [e1, e2, List.append_nil, List.length_take]
  let P := allKinds.filter (fun k => decide (2 ≤ h k))
  let S := allKinds.filter (fun k => decide (h k = 1))
  let R := allKinds.filter (fun k => decide (h k < 1))
  have mP : ∀ k, k ∈ P → 2 ≤ h k := fun k hk => by simpa using (List.mem_filter.1 hk).2
  have mS : ∀ k, k ∈ S → h k = 1 := fun k hk => by simpa using (List.mem_filter.1 hk).2
  have mR : ∀ k, k ∈ R → h k < 1 := fun k hk => by simpa using (List.mem_filter.1 hk).2
  have hPS : P.length + S.length = (allKinds.filter (fun k => decide (1 ≤ h k))).length := by
    show (allKinds.filter _).length + (allKinds.filter _).length = _
    generalize allKinds = l
    induction l with
    | nil => rfl
    | cons a l ih =>
      simp only [List.filter_cons]
      rcases (show 2 ≤ h a ∨ h a = 1 ∨ h a < 1 by omega) with c | c | c
      · rw [decide_eq_true c, decide_eq_false (show ¬ h a = 1 by omega), decide_eq_true (show 1 ≤ h a by omega)]
        simp only [if_true, Bool.false_eq_true, if_false, List.length_cons]; omega
      · rw [decide_eq_false (show ¬ 2 ≤ h a by omega), decide_eq_true c, decide_eq_true (show 1 ≤ h a by omega)]
        simp only [if_true, Bool.false_eq_true, if_false, List.length_cons]; omega
      · rw [decide_eq_false (show ¬ 2 ≤ h a by omega), decide_eq_false (show ¬ h a = 1 by omega),
          decide_eq_false (show ¬ 1 ≤ h a by omega)]
        simp only [Bool.false_eq_true, if_false]; omega
  have hall : (P ++ (S ++ R)).length = 34 := by
    have h34 : allKinds.length = 34 := by decide
    rw [← h34, List.length_append, List.length_append, ← Nat.add_assoc, hPS]
    show _ + (allKinds.filter _).length = _
    generalize allKinds = l
    induction l with
    | nil => rfl
    | cons a l ih =>
      simp only [List.filter_cons, List.length_cons]
      rcases (show 1 ≤ h a ∨ h a < 1 by omega) with c | c
      · rw [decide_eq_true c, decide_eq_false (show ¬ h a < 1 by omega)]
        simp only [if_true, Bool.false_eq_true, if_false, List.length_cons]; omega
      · rw [decide_eq_false (show ¬ 1 ≤ h a by omega), decide_eq_true c]
        simp only [if_true, Bool.false_eq_true, if_false, List.length_cons]; omega
  have hnd : (P ++ (S ++ R)).Nodup := by
    refine List.nodup_append.2 ⟨nodup_allKinds.filter _, List.nodup_append.2 ⟨nodup_allKinds.filter _,
      nodup_allKinds.filter _, ?_⟩, ?_⟩
    · rintro a ha b hb rfl
      have := mS a ha; have := mR a hb; omega
    · rintro a ha b hb rfl
      have := mP a ha
      rcases List.mem_append.1 hb with hb | hb
      · have := mS a hb; omega
      · have := mR a hb; omega
  refine ⟨(P ++ (S ++ R)).take p, hnd.take, fun k hk => ?_, ?_, ?_, ?_⟩
  · have hk := List.mem_of_mem_take hk
    simp only [List.mem_append] at hk
    rcases hk with hk | hk | hk <;> exact mem_allKinds.1 (List.mem_filter.1 hk).1
  · rw [List.length_take, hall]; omega
  · rw [← List.append_assoc, key _ (P ++ S) R]
    · simp only [List.length_append, kindsWith]; omega
    · intro k hk
      rcases List.mem_append.1 hk with hk | hk
      · have := mP k hk; simp; omega
      · have := mS k hk; simp; omega
    · intro k hk; have := mR k hk; simp; omega
  · rw [key _ P (S ++ R)]
    · have : kindsWith 2 h = P.length := rfl
      omega
    · intro k hk; have := mP k hk; simp; omega
    · intro k hk
      rcases List.mem_append.1 hk with hk | hk
      · have := mS k hk; simp; omega
      · have := mR k hk; simp; omega

theorem isStep_pairs {h : Kind → Int} (h0 : ∀ k, 0 ≤ h k) (p : Nat) (hp : p ≤ 34) (lim : Bool) :
    IsStep lim (.unique p []) h (p - 1 - min (p : Int) (kindsWith 2 h) + max 0 (p - kindsWith 1 h)) := by
  refine ⟨?_, ?_⟩
  · obtain ⟨T, hT, hv, hl, h1, h2⟩ := best_choice h p hp
    refine ⟨T.map .pair, ⟨?_, ?_, by simp [hl]⟩, ?_, ?_⟩
    · intro g hg
      obtain ⟨k, hk, rfl⟩ := List.mem_map.1 hg
      exact ⟨k, rfl, hv k hk, by simp⟩
    · exact hT.map (fun a b hab => by simpa using hab)
    · intro _ k
      rw [need_map_pair T hT]
      split <;> omega
    · rw [deficit_pairs T hT hv h0, h1, h2, hl]; omega
  · rintro D ⟨hD, hn, hl⟩ -
    obtain ⟨T, rfl⟩ : ∃ T : List Kind, D = T.map .pair := by
      clear hn hl
      induction D with
      | nil => exact ⟨[], rfl⟩
      | cons g D ih =>
        obtain ⟨T, hT⟩ := ih (fun g' hg' => hD g' (by simp [hg']))
        obtain ⟨k, hk, _⟩ := hD g (by simp)
        exact ⟨k :: T, by simp [hT, hk]⟩
    have hT : T.Nodup := hn.of_map _
    have hv : ∀ k ∈ T, ValidKind k := fun k hk => by
      obtain ⟨j, e, hj, _⟩ := hD (.pair k) (List.mem_map.2 ⟨k, hk, rfl⟩)
      cases e; exact hj
    rw [deficit_pairs T hT hv h0]
    have f1 := filter_le hT hv (fun k => decide (1 ≤ h k))
    have f2 := filter_le hT hv (fun k => decide (2 ≤ h k))
    simp only [List.length_map] at hl
    unfold kindsWith
    omega

/-- The closed form: `p - 1 - pairs + (p - kinds)`, where `pairs` counts the kinds held twice or more (at most
    `p`) and the last part only counts when fewer than `p` kinds are held. -/
def pairsStep (p : Int) (h : Kind → Int) : Int := p - 1 - min p (kindsWith 2 h) + max 0 (p - kindsWith 1 h)

/-- **C79.** For `p` different pairs (seven in the usual game) the waiting step is the closed form, for all three
    analyses; `HeuristicPatternMatchWaiting` returns it exactly when the hand has that many tiles. -/
theorem C79_pairs_formula (p : Nat) (hp : p ≤ 34) (hand : TileSet) (hh : HandOK hand) (h4 : AtMostFour (content hand))
    (s n : Int) :
    ((heurBefore s (.unique p []) true hand).1 = .ok n ↔
      n = pairsStep p (content hand) ∧ n + 1 ≤ TileSet.len hand) ∧
    ((∃ fuel, pmBefore (.unique p []) true fuel hand = some n) ↔ n = pairsStep p (content hand)) ∧
    ((∃ fuel, bruteBefore (.unique p []) true fuel hand = some n) ↔ n = pairsStep p (content hand)) := by
  have key : IsStep true (.unique p []) (content hand) n ↔ n = pairsStep p (content hand) :=
    ⟨fun h => h.unique (isStep_pairs hh.get_nonneg p hp true), fun h => h ▸ isStep_pairs hh.get_nonneg p hp true⟩
  refine ⟨?_, ?_, ?_⟩
  · rw [heurBefore_spec s hh n, key]; exact Iff.rfl
  · rw [(C14_pattern_match_least _ hand hh).1 n, key]
  · rw [← key]
    constructor
    · rintro ⟨f, h⟩; exact ((bruteBefore_step hh h4 f n).1 h).1
    · intro h
      have := h.ge
      exact ⟨(n + 1).toNat, (bruteBefore_step hh h4 _ n).2 ⟨h, by omega⟩⟩

theorem kindsWith_plus (c : Int) (h : Kind → Int) {t : Kind} (ht : ValidKind t) :
    kindsWith c (plus h t) = kindsWith c h + if h t + 1 = c then 1 else 0 := by
  have e : ∀ g : Kind → Int, kindsWith c g = sumK (fun k => if c ≤ g k then 1 else 0) := by
    intro g
    unfold kindsWith sumK
    generalize allKinds = l
    induction l with
    | nil => rfl
    | cons a l ih =>
      simp only [List.filter_cons, List.map_cons, List.sum_cons, ← ih]
      by_cases ha : c ≤ g a
      · simp [ha]; omega
      · simp [ha]
  rw [e, e]
  have e3 : sumK (fun k => (if h t + 1 = c then 1 else 0) * (if k = t then 1 else 0)) = if h t + 1 = c then 1 else 0 := by
    rw [sumK_mul, sumK_single ht]; omega
  rw [← e3, ← sumK_add]
  refine sumK_congr (fun k _ => ?_)
  unfold plus
  by_cases hk : k = t
  · subst hk
    simp only [if_true]
    split <;> split <;> split <;> omega
  · simp only [hk, if_false]; omega

/-- **C79.** Its useful tiles: the single tiles at hand and, as long as there are fewer than `p` kinds, every kind
    not held; nothing once there are `p` pairs. -/
theorem C79_pairs_useful (p : Nat) (hp : p ≤ 34) (hand : TileSet) (hh : HandOK hand) (s n : Int) (u : List Tile)
    (h : heurWaitingUseful s (.unique p []) true hand = .ok (n, u)) (k : Kind) :
    k ∈ u.map Tile.view ↔ ValidKind k ∧
      (content hand k = 1 ∧ kindsWith 2 (content hand) < p ∨ content hand k = 0 ∧ kindsWith 1 (content hand) < p) := by
  obtain ⟨h1, _, h3⟩ := C17_heuristic_useful _ hand hh s n u h
  rw [h3]
  have n0 : 0 ≤ content hand k := hh.get_nonneg k
  have p0 : ∀ j, 0 ≤ plus (content hand) k j := fun j => by
    have : 0 ≤ content hand j := hh.get_nonneg j
    unfold plus; split <;> omega
  have s1 := isStep_pairs (h := content hand) hh.get_nonneg p hp true
  have s2 := isStep_pairs (h := plus (content hand) k) p0 p hp true
  have sub : kindsWith 2 (content hand) ≤ kindsWith 1 (content hand) := by
    unfold kindsWith
    have := List.Sublist.length_le (List.monotone_filter_right allKinds (p := fun k => decide (2 ≤ content hand k))
      (q := fun k => decide (1 ≤ content hand k)) (fun a ha => by simp at *; omega))
    omega
  constructor
  · rintro ⟨a, b, m, m', c, d, e⟩
    have e1 := c.unique s1
    have e2 := d.unique s2
    rw [kindsWith_plus 1 _ a, kindsWith_plus 2 _ a] at e2
    refine ⟨a, ?_⟩
    split at e2 <;> split at e2 <;> omega
  · rintro ⟨a, b⟩
    rw [kindsWith_plus 1 _ a, kindsWith_plus 2 _ a] at s2
    refine ⟨a, by omega, _, _, s1, s2, ?_⟩
    split <;> split <;> omega

/-- instance: 1m 1m 2m 5p, with two pairs wanted, is ready, waiting for 2m and 5p; -/
example : (heurWaitingUseful 0 (.unique 2 []) true exSmall).toOption.map (fun r => (r.1, r.2.map Tile.view)) =
    some (0, [(.m,2),(.p,5)]) ∧ pairsStep 2 (content exSmall) = 0 ∧ kindsWith 1 (content exSmall) = 3 := by
  decide +kernel
/-- and with four pairs wanted every kind not held is useful, too. -/
example : (heurWaitingUseful 0 (.unique 4 []) true exSmall).toOption.map (fun r => (r.1, r.2.length)) =
    some (3, 33) ∧ pairsStep 4 (content exSmall) = 3 := by
  decide +kernel

end Verif.Props
