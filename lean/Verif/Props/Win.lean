import Verif.Proofs.TileSet
import Mathlib.Data.List.Perm.Subperm
import Mathlib.Data.List.Nodup

/-! Properties C07 – C12: deduplication, win patterns and their selections. -/
namespace Verif.Props
open Verif.Py Verif.Model Verif.Spec Verif.Proofs

/-! ### C07 -/

/-- **C07.** `distinct` on items whose `==` is an equivalence and whose `<` is a strict total order
    compatible with it: the result is empty for no items; for `l` followed by one more item `x` it is
    the result for `l`, with `x` appended exactly when nothing in `l` is `== x`.  (This determines the
    output: each class of equal items once, represented by its first occurrence, in first-seen order.) -/
theorem C07_distinct {α : Type} (eq lt : α → α → Bool)
    (S : StrictTotal (fun _ => True) eq lt) (l : List α) (x : α) :
    distinct eq lt [] = [] ∧
    ((∃ y ∈ l, eq y x = true) → distinct eq lt (l ++ [x]) = distinct eq lt l) ∧
    ((¬ ∃ y ∈ l, eq y x = true) → distinct eq lt (l ++ [x]) = distinct eq lt l ++ [x]) := by
  have := (distinct_mem_iff_aux S l (fun _ _ => trivial)).2.2 x trivial
  exact ⟨rfl, this.1, this.2⟩

/-- **C07.** Consequences in the words of the property: the output is a sub-sequence of the input, no
    two outputs are equal, every input item equals an output. -/
theorem C07_distinct_summary {α : Type} (eq lt : α → α → Bool)
    (S : StrictTotal (fun _ => True) eq lt) (l : List α) :
    (distinct eq lt l).Sublist l ∧
    (distinct eq lt l).Pairwise (fun a b => eq a b = false) ∧
    ∀ x ∈ l, ∃ y ∈ distinct eq lt l, eq y x = true :=
  ⟨distinct_sublist S l (fun _ _ => trivial), distinct_pairwise S l (fun _ _ => trivial),
   (distinct_mem_iff_aux S l (fun _ _ => trivial)).2.1⟩

/-- instance: tiles themselves, with red fives equal to plain fives. -/
example : StrictTotal (fun _ : Tile × Int => True) itemEq itemLt := item_strictTotal
example : distinct (fun a b : Int => a == b) (fun a b => decide (a < b)) [3, 1, 3, 2, 1] = [3, 1, 2] := by
  simp [distinct, distinctStep, bisectLeft, bisectLeftLoop, notEqAt]

/-! ### C08, C11 -/

/-- **C08.** `NormalTypeWin(p, m).match(hand)` is True exactly when there are `p` pairs and `m`
    runs/triplets that fit into the hand together. -/
theorem C08_normal_match (p m : Nat) (hand : TileSet) (h : HandOK hand) :
    winMatch (.normal p m) hand = true ↔
      ∃ D : List Group, (∀ g ∈ D, g.Proper) ∧
        (D.filter (fun g => g.isPair)).length = p ∧ (D.filter (fun g => !g.isPair)).length = m ∧
        ∀ k, need D k ≤ content hand k := by
  rw [winMatch_iff h]
  constructor
  · rintro ⟨D, ⟨h1, h2, h3⟩, h4⟩; exact ⟨D, h1, h2, h3, h4⟩
  · rintro ⟨D, h1, h2, h3, h4⟩; exact ⟨D, ⟨h1, h2, h3⟩, h4⟩

/-- instance: a complete hand with a red five, and one tile short of it. -/
def exHand : TileSet := Counter.ofIter
  [⟨.m,1,false⟩,⟨.m,2,false⟩,⟨.m,3,false⟩,⟨.m,4,false⟩,⟨.m,0,true⟩,⟨.m,6,false⟩,
   ⟨.p,9,false⟩,⟨.p,9,false⟩,⟨.p,9,false⟩,⟨.s,7,false⟩,⟨.s,8,false⟩,⟨.s,9,false⟩,⟨.z,1,false⟩,⟨.z,1,false⟩]

example : HandOK exHand ∧ winMatch (.normal 1 4) exHand = true ∧
    winMatch (.normal 1 4) (exHand.filter (fun e => decide (e.1.view ≠ (.m, 5)))) = false := by
  decide +kernel

/-- **C11.** `UniquePairs(n).match(hand)` is True exactly when at least `n` different kinds occur at
    least twice. -/
theorem C11_unique_pairs_match (n : Nat) (hand : TileSet) (h : HandOK hand) :
    winMatch (.unique n []) hand = true ↔
      n ≤ (allKinds.filter (fun k => decide (2 ≤ content hand k))).length := by
  rw [winMatch_iff h]
  constructor
  · rintro ⟨D, ⟨h1, h2, h3⟩, h4⟩
    have hks : ∃ ks : List Kind, D = ks.map Group.pair := by
      clear h2 h3 h4
      induction D with
      | nil => exact ⟨[], rfl⟩
      | cons g D ih =>
        obtain ⟨k, rfl, _⟩ := h1 g (by simp)
        obtain ⟨ks, rfl⟩ := ih (fun g hg => h1 g (by simp [hg]))
        exact ⟨k :: ks, rfl⟩
    obtain ⟨ks, rfl⟩ := hks
    have hnd : ks.Nodup := by
      have := List.Nodup.of_map _ h2
      exact this
    rw [← h3, List.length_map]
    refine (List.Nodup.subperm hnd ?_).length_le
    intro k hk
    rw [List.mem_filter]
    obtain ⟨k', he, hv, _⟩ := h1 (.pair k) (List.mem_map.2 ⟨k, hk, rfl⟩)
    simp at he; subst he
    refine ⟨mem_allKinds.2 hv, ?_⟩
    have h5 := h4 k
    have h6 := count_le_need (D := ks.map Group.pair) (g := .pair k) (List.mem_map.2 ⟨k, hk, rfl⟩) k
    simp [Group.count] at h6
    simp; omega
  · intro hn
    refine ⟨((allKinds.filter (fun k => decide (2 ≤ content hand k))).take n).map Group.pair, ⟨?_, ?_, ?_⟩, ?_⟩
    · intro g hg
      obtain ⟨k, hk, rfl⟩ := List.mem_map.1 hg
      have := List.mem_filter.1 (List.mem_of_mem_take hk)
      exact ⟨k, rfl, mem_allKinds.1 this.1, by simp⟩
    · refine List.Nodup.map (fun a b h => by simpa using h) ?_
      exact ((nodup_allKinds.filter _).sublist (List.take_sublist _ _))
    · simp; omega
    · intro k
      have hnd : ((allKinds.filter (fun k => decide (2 ≤ content hand k))).take n).Nodup :=
        ((nodup_allKinds.filter _).sublist (List.take_sublist _ _))
      have hmem : ∀ k ∈ (allKinds.filter (fun k => decide (2 ≤ content hand k))).take n,
          2 ≤ content hand k := by
        intro k hk
        have := (List.mem_filter.1 (List.mem_of_mem_take hk)).2
        simpa using this
      generalize (allKinds.filter (fun k => decide (2 ≤ content hand k))).take n = ks at *
      have hneed : ∀ ks : List Kind, ks.Nodup → need (ks.map Group.pair) k = if k ∈ ks then 2 else 0 := by
        intro ks
        induction ks with
        | nil => intro _; simp
        | cons a ks ih =>
          intro hnd
          rw [List.nodup_cons] at hnd
          simp only [List.map_cons, need_cons, ih hnd.2, Group.count, List.mem_cons]
          by_cases hka : k = a
          · subst hka; simp [hnd.1]
          · simp [hka]
      rw [hneed ks hnd]
      split
      · rename_i hk; exact hmem k hk
      · exact h.get_nonneg k

/-- instance: four equal tiles are one pair only. -/
example : winMatch (.unique 2 []) (Counter.ofIter (List.replicate 4 ⟨.z,1,false⟩)) = false ∧
    winMatch (.unique 2 []) (Counter.ofIter [⟨.z,1,false⟩,⟨.m,0,true⟩,⟨.z,1,false⟩,⟨.m,5,false⟩]) = true := by
  decide +kernel

/-! ### C09, C10 -/

/-- **C09.** Every selection yielded by `win_selections` is a complete set of groups for the pattern
    (for `UniquePairs`, of pairwise different pairs) whose tiles are together contained in the hand. -/
theorem C09_sound (w : Pattern) (hand : TileSet) (h : HandOK hand) (sel : Selection)
    (hsel : sel ∈ winSelections w hand) :
    ∃ D, Legal w D ∧ AreGroups sel D ∧ ∀ k, need D k ≤ content hand k := by
  obtain ⟨D, h1, h2, h3⟩ := winSelections_sound h hsel
  exact ⟨D, h1, by rw [h2]; exact areGroups_map D, h3⟩

/-- **C10.** `unique_win_selections` yields nothing but ways of winning, and for every complete set of
    groups inside the hand it yields that set at exactly one position. -/
theorem C10_exactly_once (w : Pattern) (hand : TileSet) (h : HandOK hand) :
    (∀ sel ∈ uniqueWinSelections w hand,
      ∃ D, Legal w D ∧ Realises sel D ∧ ∀ k, need D k ≤ content hand k) ∧
    (∀ D, Legal w D → (∀ k, need D k ≤ content hand k) →
      ∃ pre sel post, uniqueWinSelections w hand = pre ++ sel :: post ∧ Realises sel D ∧
        ∀ s ∈ pre ++ post, ¬ Realises s D) :=
  uniqueWinSelections_spec h

/-- instance: `111222333m` with three melds has two decompositions. -/
def exTriple : TileSet := Counter.ofIter
  [⟨.m,1,false⟩,⟨.m,1,false⟩,⟨.m,1,false⟩,⟨.m,2,false⟩,⟨.m,2,false⟩,⟨.m,2,false⟩,
   ⟨.m,3,false⟩,⟨.m,3,false⟩,⟨.m,3,false⟩]

example : HandOK exTriple ∧ (winSelections (.normal 0 3) exTriple).length = 2 ∧
    Legal (.normal 0 3) [.run (.m,1), .run (.m,1), .run (.m,1)] ∧
    ∀ k ∈ allKinds, need [.run (.m,1), .run (.m,1), .run (.m,1)] k ≤ content exTriple k := by
  refine ⟨by decide, by decide +kernel, ?_, by decide +kernel⟩
  simp [Legal, Group.Proper, Group.isPair]

/-! ### C12 -/

/-- **C12.** Adding tiles never turns a match into a non-match. -/
theorem C12_monotone (w : Pattern) (hand extra : TileSet) (h : HandOK hand) (he : HandOK extra)
    (hm : winMatch w hand = true) : winMatch w (TileSet.add hand extra) = true := by
  rw [winMatch_iff h] at hm
  rw [winMatch_iff (HandOK_add h he)]
  obtain ⟨D, h1, h2⟩ := hm
  refine ⟨D, h1, fun k => ?_⟩
  unfold content
  rw [get_add h.1 he.1]
  have a1 := h2 k
  have a2 := he.get_nonneg k
  unfold content at a1
  omega

/-- **C12.** `match` depends only on how many tiles of each kind there are: red fives and key order do
    not matter. -/
theorem C12_kinds_only (w : Pattern) (hand hand' : TileSet) (h : HandOK hand) (h' : HandOK hand')
    (heq : ∀ k, content hand k = content hand' k) : winMatch w hand = winMatch w hand' := by
  have : winMatch w hand = true ↔ winMatch w hand' = true := by
    rw [winMatch_iff h, winMatch_iff h']
    unfold Wins
    simp only [heq]
  cases h1 : winMatch w hand <;> cases h2 : winMatch w hand' <;> simp_all

example : winMatch (.normal 1 1) (TileSet.add
    (Counter.ofIter [⟨.z,1,false⟩,⟨.z,1,false⟩,⟨.s,4,false⟩,⟨.s,0,true⟩,⟨.s,6,false⟩])
    (Counter.ofIter [⟨.z,1,false⟩])) = true := by decide +kernel

end Verif.Props
