import Verif.Spec.Frontend
import Verif.Props.Report
import Verif.Props.Record

/-! The front end. -/
namespace Verif.Proofs
open Verif.Py Verif.Model Verif.Spec Verif.Props

/-- a digit text is its value with zeros in front -/
theorem writes_digitsVal (s : Str) (hs : s ≠ []) (h : s.all isDigit = true) : Writes s (digitsVal 0 s).toNat ∧ 0 ≤ digitsVal 0 s := by
  have key : ∀ (s : Str), (∀ c ∈ s, isDigit c = true) → s ≠ [] → ∃ k : Nat, Writes s k := by
    intro s
    induction s using List.reverseRecOn with
    | nil => intro _ h; exact absurd rfl h
    | append_singleton s c ih =>
      intro h _
      have hc : isDigit c = true := h c (by simp)
      obtain ⟨d, hd, rfl⟩ : ∃ d, d < 10 ∧ c = Char.ofNat (48 + d) := by
        have : ('0' ≤ c ∧ c ≤ '9') := by simpa [isDigit] using hc
        simp only [Char.le_def, UInt32.le_iff_toNat_le] at this
        simp at this
        refine ⟨c.toNat - 48, ?_, ?_⟩
        · show c.toNat - 48 < 10
          have : c.val.toNat = c.toNat := rfl
          omega
        · have e : c.val.toNat = c.toNat := rfl
          rw [show 48 + (c.toNat - 48) = c.toNat by omega]
          exact (Char.ofNat_toNat c).symm
      by_cases hs : s = []
      · subst hs
        exact ⟨d, 0, by simp [natDigits_lt hd]⟩
      · obtain ⟨k, z, rfl⟩ := ih (fun c hc => h c (by simp [hc])) hs
        by_cases hk : k = 0
        · subst hk
          refine ⟨d, z + 1, ?_⟩
          rw [natDigits_lt hd, natDigits_lt (by omega : 0 < 10), List.replicate_succ']
        · refine ⟨10 * k + d, z, ?_⟩
          have := natDigits_ge (n := 10 * k + d) (by omega)
          rw [this, show (10 * k + d) / 10 = k by omega, show (10 * k + d) % 10 = d by omega, List.append_assoc]
  obtain ⟨k, z, rfl⟩ := key s (by simpa using h) hs
  rw [digitsVal_zeros, digitsVal_natDigits]
  exact ⟨⟨z, by simp⟩, by omega⟩

theorem writes_val {s : Str} {k : Nat} (h : Writes s k) : s ≠ [] ∧ s.all isDigit = true ∧ digitsVal 0 s = k := by
  obtain ⟨z, rfl⟩ := h
  refine ⟨by simp [natDigits_ne_nil], ?_, by rw [digitsVal_zeros, digitsVal_natDigits]⟩
  rw [List.all_append, Bool.and_eq_true]
  refine ⟨?_, by simpa using natDigits_all k⟩
  rw [List.all_eq_true]
  intro c hc
  rw [List.eq_of_mem_replicate hc]
  decide

theorem real_shown : ∀ k ∈ allKinds, ∀ a : Bool, (a = true → k.2 = 5 ∧ k.1 ≠ Suit.z) →
    Tile.str ⟨k.1, if a then 0 else k.2, a⟩ ∈ shownTiles := by decide +kernel

theorem real_str {t : Tile} (h : RealTile t) : t.str ∈ shownTiles := by
  obtain ⟨c, n, a⟩ := t
  obtain ⟨h1, h2⟩ := h
  have hk := mem_allKinds.2 h1
  cases a with
  | false => simpa [Tile.view] using real_shown _ hk false (by simp)
  | true =>
    obtain ⟨h2, h3⟩ := h2 rfl
    simp only at h2 h3
    subst h2
    have := real_shown _ hk true (by intro _; exact ⟨rfl, h3⟩)
    simpa [Tile.view] using this

end Verif.Proofs
