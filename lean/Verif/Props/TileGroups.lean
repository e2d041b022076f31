import Verif.Proofs.Groups

/-! Property C65: the successor of a tile and the groups it starts. -/
namespace Verif.Props
open Verif.Py Verif.Model Verif.Spec Verif.Proofs

/-- **C65.** The successor of a real tile is the plain tile one higher in its suit (a red five counts as five);
    nines and honours have none. -/
theorem C65_next (t : Tile) (h : RealTile t) :
    (∀ u, t.next = some u ↔ (t.color ≠ .z ∧ t.view.2 ≤ 8 ∧ u.aka = false ∧ u.color = t.color ∧
      u.number = t.view.2 + 1)) ∧
    (t.next = none ↔ t.color = .z ∨ t.view.2 = 9) := by
  obtain ⟨c, n, a⟩ := t
  have hv := h.1
  have ha := h.2
  simp only [Tile.next, Tile.isSuit, Tile.view] at *
  cases a with
  | true =>
    obtain ⟨rfl, hc⟩ := ha rfl
    simp only [hc, ne_eq, not_false_iff, decide_true, Bool.true_and]
    constructor
    · rintro ⟨uc, un, ua⟩
      simp
      constructor
      · rintro ⟨rfl, rfl, rfl⟩; simp
      · rintro ⟨rfl, rfl, rfl⟩; simp
    · simp
  | false =>
    simp only [Bool.false_eq_true, if_false] at *
    rcases hv with ⟨h1, h2, h3⟩ | ⟨h1, h2, h3⟩
    · simp only [h1, ne_eq, not_false_iff, decide_true, Bool.true_and]
      constructor
      · rintro ⟨uc, un, ua⟩
        by_cases h9 : n < 9
        · simp [h9]
          constructor
          · rintro ⟨rfl, rfl, rfl⟩; simp; omega
          · rintro ⟨_, rfl, rfl, rfl⟩; simp
        · simp [h9]; intro; omega
      · by_cases h9 : n < 9
        · simp [h9]; omega
        · simp [h9]; omega
    · simp only at h1; subst h1; simp

/-- **C65.** `pair` and `triplet` are two and three copies, `flush` is the tile and the two above it in its suit —
    and is missing exactly for honours and for eights and nines. -/
theorem C65_groups (t : Tile) (h : RealTile t) :
    (∀ k, content t.pair k = if k = t.view then 2 else 0) ∧
    (∀ k, content t.triplet k = if k = t.view then 3 else 0) ∧
    (t.flush = none ↔ t.color = .z ∨ 8 ≤ t.view.2) ∧
    (∀ s, t.flush = some s → ∀ k, content s k =
      if k.1 = t.color ∧ (k.2 = t.view.2 ∨ k.2 = t.view.2 + 1 ∨ k.2 = t.view.2 + 2) then 1 else 0) ∧
    ∀ e ∈ t.pair ++ t.triplet ++ t.flush.getD [], e.1.aka = false := by
  rw [repeat_two, repeat_three, flush_eq h]
  refine ⟨fun k => ?_, fun k => ?_, ?_, ?_, ?_⟩
  · exact get_unitOf (.pair t.view) k
  · exact get_unitOf (.trip t.view) k
  · by_cases hc : t.color = .z
    · simp [hc]
    · simp only [hc, ne_eq, not_false_iff, true_and, false_or]
      split
      · simp; omega
      · simp; omega
  · intro s hs k
    split at hs
    · cases hs
      show Counter.get _ _ = _
      rw [get_unitOf]
      simp only [Group.count, show t.view.1 = t.color from rfl]
      congr 1
      rw [eq_iff_iff]
      constructor <;> rintro ⟨a, b⟩ <;> exact ⟨a, by omega⟩
    · cases hs
  · intro e he
    split at he
    · simp [unitOf, plain] at he
      rcases he with rfl | rfl | rfl | rfl | rfl <;> rfl
    · simp [plain] at he
      rcases he with rfl | rfl <;> rfl

/-- instances: a red five, an eight and an honour. -/
example : RealTile ⟨.p, 0, true⟩ ∧ (⟨.p, 0, true⟩ : Tile).next = some ⟨.p, 6, false⟩ ∧
    RealTile ⟨.s, 8, false⟩ ∧ (⟨.s, 8, false⟩ : Tile).flush = none ∧
    RealTile ⟨.z, 1, false⟩ ∧ (⟨.z, 1, false⟩ : Tile).next = none := by decide +kernel

end Verif.Props
