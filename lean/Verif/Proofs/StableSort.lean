import Verif.Proofs.Order

/-! Stable sorting by a weak order is sorting by (order, position). -/
namespace Verif.Proofs
open Verif.Py

variable {α β : Type}

/-- a strict weak order given as a Boolean test -/
structure Weak (lt : α → α → Bool) : Prop where
  irrefl : ∀ a, lt a a = false
  trans : ∀ a b c, lt a b = true → lt b c = true → lt a c = true
  neg_trans : ∀ a b c, lt a b = false → lt b c = false → lt a c = false

/-- compare by `lt`, then by position -/
def ltI (lt : α → α → Bool) (x y : α × Nat) : Bool :=
  if lt x.1 y.1 then true else if lt y.1 x.1 then false else decide (x.2 < y.2)

def eqI (lt : α → α → Bool) (x y : α × Nat) : Bool := !lt x.1 y.1 && !lt y.1 x.1 && decide (x.2 = y.2)

theorem Weak.strict {lt : α → α → Bool} (W : Weak lt) : StrictTotal (fun _ => True) (eqI lt) (ltI lt) := by
  have asym : ∀ a b, lt a b = true → lt b a = false := by
    intro a b h
    cases h' : lt b a with
    | false => rfl
    | true => have := W.trans a b a h h'; rw [W.irrefl] at this; exact absurd this (by simp)
  refine ⟨?_, ?_, ?_, ?_, ?_, ?_⟩
  · intro a _; simp [eqI, W.irrefl]
  · intro a b _ _ h
    simp only [eqI, Bool.and_eq_true, Bool.not_eq_true', decide_eq_true_eq] at h ⊢
    exact ⟨⟨h.1.2, h.1.1⟩, h.2.symm⟩
  · intro a b c _ _ _ h1 h2
    simp only [eqI, Bool.and_eq_true, Bool.not_eq_true', decide_eq_true_eq] at h1 h2 ⊢
    exact ⟨⟨W.neg_trans _ _ _ h1.1.1 h2.1.1, W.neg_trans _ _ _ h2.1.2 h1.1.2⟩, h1.2.trans h2.2⟩
  · intro a b _ _ h
    simp only [eqI, Bool.and_eq_true, Bool.not_eq_true', decide_eq_true_eq] at h
    simp [ltI, h.1.1, h.1.2, h.2]
  · intro a b c _ _ _ h1 h2
    have T := W.trans a.1 b.1 c.1
    have N1 := W.neg_trans a.1 c.1 b.1
    have N2 := W.neg_trans b.1 a.1 c.1
    have N3 := W.neg_trans c.1 b.1 a.1
    have N4 := W.neg_trans c.1 a.1 b.1
    have N5 := W.neg_trans b.1 c.1 a.1
    have A1 := asym a.1 b.1
    have A2 := asym b.1 c.1
    have A3 := asym a.1 c.1
    simp only [ltI] at *
    cases e1 : lt a.1 b.1 <;> cases e2 : lt b.1 a.1 <;> cases e3 : lt b.1 c.1 <;> cases e4 : lt c.1 b.1 <;>
      cases e5 : lt a.1 c.1 <;> cases e6 : lt c.1 a.1 <;> simp_all <;> omega
  · intro a b _ _
    simp only [ltI, eqI]
    cases e1 : lt a.1 b.1 <;> cases e2 : lt b.1 a.1 <;> simp
    omega

theorem insertSorted_map (lt : α → α → Bool) (lt' : β → β → Bool) (f : α → β) (x : α) (l : List α)
    (h : ∀ y ∈ l, lt' (f x) (f y) = lt x y) :
    insertSorted lt' (f x) (l.map f) = (insertSorted lt x l).map f := by
  induction l with
  | nil => rfl
  | cons y l ih =>
    simp only [List.map_cons, insertSorted, h y (by simp)]
    split
    · rfl
    · rw [ih (fun z hz => h z (by simp [hz]))]; rfl

theorem pySorted_map (lt : α → α → Bool) (lt' : β → β → Bool) (f : α → β) (l : List α)
    (h : ∀ x ∈ l, ∀ y ∈ l, lt' (f x) (f y) = lt x y) :
    pySorted lt' (l.map f) = (pySorted lt l).map f := by
  have : ∀ (acc rest : List α), (∀ x ∈ rest, ∀ y, y ∈ acc ∨ y ∈ rest → lt' (f x) (f y) = lt x y) →
      (rest.map f).foldl (fun acc x => insertSorted lt' x acc) (acc.map f) =
        (rest.foldl (fun acc x => insertSorted lt x acc) acc).map f := by
    intro acc rest
    induction rest generalizing acc with
    | nil => intro _; rfl
    | cons x rest ih =>
      intro hh
      simp only [List.map_cons, List.foldl_cons]
      rw [insertSorted_map lt lt' f x acc (fun y hy => hh x (by simp) y (Or.inl hy))]
      apply ih
      intro z hz y hy
      apply hh z (by simp [hz])
      rcases hy with hy | hy
      · rcases List.mem_cons.1 ((insertSorted_perm x acc).mem_iff.1 hy) with rfl | hy
        · right; simp
        · left; exact hy
      · right; simp [hy]
  have := this [] l (by intro x hx y hy; rcases hy with hy | hy; · simp at hy
                        · exact h x hx y hy)
  simpa [pySorted] using this

/-- stability -/
theorem pySorted_stable (lt : α → α → Bool) (l : List α) :
    pySorted lt l = (pySorted (ltI lt) l.zipIdx).map (·.1) := by
  have : ∀ (acc : List (α × Nat)) (rest : List α) (n : Nat), (∀ y ∈ acc, y.2 < n) →
      rest.foldl (fun acc x => insertSorted lt x acc) (acc.map (·.1)) =
        ((rest.zipIdx n).foldl (fun acc x => insertSorted (ltI lt) x acc) acc).map (·.1) := by
    intro acc rest
    induction rest generalizing acc with
    | nil => intro n _; rfl
    | cons x rest ih =>
      intro n hn
      simp only [List.zipIdx_cons, List.foldl_cons]
      rw [← ih _ (n + 1)]
      · congr 1
        rw [← insertSorted_map (ltI lt) lt (·.1) (x, n) acc]
        intro y hy
        have := hn y hy
        simp only [ltI]
        split
        · assumption
        · split
          · simp_all
          · next h _ => simp [h]; omega
      · intro y hy
        rcases List.mem_cons.1 ((insertSorted_perm (x, n) acc).mem_iff.1 hy) with rfl | hy
        · simp
        · have := hn y hy; omega
  have := this [] l 0 (by simp)
  simpa [pySorted] using this

/-- in a sorted list the position of an item is the number of smaller items -/
theorem sorted_position {P : α → Prop} {eq lt : α → α → Bool} (S : StrictTotal P eq lt) (l : List α)
    (hl : ∀ y ∈ l, P y) (hs : l.Pairwise (fun a b => lt b a = false))
    (hne : l.Pairwise (fun a b => eq a b = false)) (i : Nat) (x : α) (hi : l[i]? = some x) :
    l.countP (fun y => lt y x) = i := by
  induction l generalizing i with
  | nil => simp at hi
  | cons y l ih =>
    rw [List.pairwise_cons] at hs hne
    have hy := hl y (by simp)
    cases i with
    | zero =>
      simp at hi
      subst hi
      rw [List.countP_eq_zero]
      intro z hz
      rcases List.mem_cons.1 hz with rfl | hz
      · rw [S.irrefl _ _ hy hy (S.refl _ hy)]; simp
      · rw [hs.1 z hz]; simp
    | succ i =>
      simp at hi
      have hx : x ∈ l := List.mem_of_getElem? hi
      have hPx := hl x (by simp [hx])
      rw [List.countP_cons, ih (fun z hz => hl z (by simp [hz])) hs.2 hne.2 i hi]
      have : lt y x = true := by
        rcases S.tri y x hy hPx with h | h | h
        · exact h
        · rw [hne.1 x hx] at h; exact absurd h (by simp)
        · rw [hs.1 x hx] at h; exact absurd h (by simp)
      simp [this]

end Verif.Proofs
