import Verif.Proofs.Checker
import Verif.Spec.Unicode
import Mathlib.Data.Nat.Factorial.Basic

/-! Lemmas on the counting helpers of the record checker and on tile symbols. -/
namespace Verif.Proofs
open Verif.Py Verif.Model Verif.Spec

theorem usefulCount_returns (inv : List InvElem) (us : List Tile) (hus : ∀ t ∈ us, RealTile t) :
    ∃ c, usefulCount inv us = .ok c := by
  unfold usefulCount
  have : ∃ l, us.mapM (rangeCount inv) = .ok l := by
    induction us with
    | nil => exact ⟨[], rfl⟩
    | cons t us ih =>
      obtain ⟨l, hl⟩ := ih (fun u hu => hus u (List.mem_cons_of_mem _ hu))
      obtain ⟨a, h1, _⟩ := range_counted t (hus t List.mem_cons_self)
      rw [List.mapM_cons, hl]
      unfold rangeCount
      rw [h1]
      exact ⟨_, rfl⟩
  obtain ⟨l, hl⟩ := this
  rw [hl]
  exact ⟨_, rfl⟩

theorem nAr_eq (n r : Nat) : nAr n r = (n.descFactorial r : Nat) := by
  unfold nAr downFrom
  rw [Int.toNat_natCast]
  induction r with
  | zero => rfl
  | succ r ih =>
    rw [List.range_succ, List.map_append, List.foldl_append, ih, Nat.descFactorial_succ]
    simp only [List.map_cons, List.map_nil, List.foldl_cons, List.foldl_nil]
    by_cases h : r ≤ n
    · push_cast [Int.ofNat_sub h]; rw [Int.mul_comm]
    · have : n.descFactorial r = 0 := Nat.descFactorial_eq_zero_iff_lt.2 (by omega)
      rw [this]; simp

theorem unicode_table (t : Tile) (ht : RealTile t) (hp : t.aka = false) :
    ∃ j : Nat, j < 34 ∧ unicodeOrder[j]? = some t.view ∧ unicodeTile t = .ok (0x1f000 + (j : Int)) := by
  have tab : ∀ k ∈ unicodeOrder, unicodeTile ⟨k.1, k.2, false⟩ = .ok (0x1f000 + (unicodeOrder.idxOf k : Int)) := by
    decide +kernel
  obtain ⟨c, num, aka⟩ := t
  simp only at hp
  subst hp
  have hv : ValidKind (c, num) := ht.1
  have hmem : (c, num) ∈ unicodeOrder := by
    rcases hv with ⟨h1, h2, h3⟩ | ⟨h1, h2, h3⟩
    · simp only at h1 h2 h3
      have : num = 1 ∨ num = 2 ∨ num = 3 ∨ num = 4 ∨ num = 5 ∨ num = 6 ∨ num = 7 ∨ num = 8 ∨ num = 9 := by omega
      cases c <;> rcases this with rfl | rfl | rfl | rfl | rfl | rfl | rfl | rfl | rfl <;> first | decide | exact absurd rfl h1
    · simp only at h1 h2 h3
      subst h1
      have : num = 1 ∨ num = 2 ∨ num = 3 ∨ num = 4 ∨ num = 5 ∨ num = 6 ∨ num = 7 := by omega
      rcases this with rfl | rfl | rfl | rfl | rfl | rfl | rfl <;> decide
  have hlt := List.idxOf_lt_length_of_mem hmem
  refine ⟨unicodeOrder.idxOf (c, num), by simpa [unicodeOrder] using hlt, ?_, tab _ hmem⟩
  rw [List.getElem?_eq_getElem hlt, List.getElem_idxOf hlt]
  rfl

/-- two lists whose entries correspond -/
structure Pointwise {α β : Type} (R : α → β → Prop) (l : List α) (r : List β) : Prop where
  length_eq : l.length = r.length
  of_right : ∀ {i : Nat} {y : β}, r[i]? = some y → ∃ x, l[i]? = some x ∧ R x y
  of_left : ∀ {i : Nat} {x : α}, l[i]? = some x → ∃ y, r[i]? = some y ∧ R x y

theorem mapM_forall {α β : Type} {f : α → Except PyErr β} {l : List α} {r : List β} (h : l.mapM f = .ok r) :
    Pointwise (fun x y => f x = .ok y) l r := by
  induction l generalizing r with
  | nil =>
    simp only [List.mapM_nil, pure_ok] at h
    subst h
    exact ⟨rfl, by simp, by simp⟩
  | cons a l ih =>
    simp only [List.mapM_cons, bind_ok, pure_ok] at h
    obtain ⟨y, h1, ys, h2, rfl⟩ := h
    obtain ⟨k1, k2, k3⟩ := ih h2
    refine ⟨by simp [k1], ?_, ?_⟩
    · intro i z hz
      cases i with
      | zero => simp only [List.getElem?_cons_zero, Option.some.injEq] at hz; subst hz; exact ⟨a, rfl, h1⟩
      | succ i => exact k2 hz
    · intro i z hz
      cases i with
      | zero => simp only [List.getElem?_cons_zero, Option.some.injEq] at hz; subst hz; exact ⟨y, rfl, h1⟩
      | succ i => exact k3 hz

end Verif.Proofs
