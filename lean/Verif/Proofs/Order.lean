import Mathlib.Data.List.Induction
import Verif.Model.Distinct

namespace Verif.Proofs
open Verif.Py Verif.Model

/-- `==` is an equivalence and `<` a strict total order up to `==`, on the items satisfying `P`. -/
structure StrictTotal {α : Type} (P : α → Prop) (eq lt : α → α → Bool) : Prop where
  refl : ∀ a, P a → eq a a = true
  symm : ∀ a b, P a → P b → eq a b = true → eq b a = true
  trans : ∀ a b c, P a → P b → P c → eq a b = true → eq b c = true → eq a c = true
  irrefl : ∀ a b, P a → P b → eq a b = true → lt a b = false
  lt_trans : ∀ a b c, P a → P b → P c → lt a b = true → lt b c = true → lt a c = true
  tri : ∀ a b, P a → P b → lt a b = true ∨ eq a b = true ∨ lt b a = true

namespace StrictTotal
variable {α : Type} {P : α → Prop} {eq lt : α → α → Bool} (S : StrictTotal P eq lt)
include S

theorem asymm {a b : α} (ha : P a) (hb : P b) (h : lt a b = true) : lt b a = false := by
  cases h' : lt b a with
  | false => rfl
  | true =>
    have := S.lt_trans a b a ha hb ha h h'
    rw [S.irrefl a a ha ha (S.refl a ha)] at this
    exact absurd this (by simp)

theorem ne_of_lt {a b : α} (ha : P a) (hb : P b) (h : lt a b = true) : eq a b = false := by
  cases h' : eq a b with
  | false => rfl
  | true => rw [S.irrefl a b ha hb h'] at h; exact absurd h (by simp)

theorem lt_of_lt_of_eq {a b c : α} (ha : P a) (hb : P b) (hc : P c) (h1 : lt a b = true)
    (h2 : eq b c = true) : lt a c = true := by
  rcases S.tri a c ha hc with h | h | h
  · exact h
  · have := S.trans a c b ha hc hb h (S.symm b c hb hc h2)
    rw [S.ne_of_lt ha hb h1] at this; exact absurd this (by simp)
  · have := S.lt_trans c a b hc ha hb h h1
    rw [S.irrefl c b hc hb (S.symm b c hb hc h2)] at this; exact absurd this (by simp)

theorem lt_of_eq_of_lt {a b c : α} (ha : P a) (hb : P b) (hc : P c) (h1 : eq a b = true)
    (h2 : lt b c = true) : lt a c = true := by
  rcases S.tri a c ha hc with h | h | h
  · exact h
  · have := S.trans b a c hb ha hc (S.symm a b ha hb h1) h
    rw [S.ne_of_lt hb hc h2] at this; exact absurd this (by simp)
  · have := S.lt_trans b c a hb hc ha h2 h
    rw [S.irrefl b a hb ha (S.symm a b ha hb h1)] at this; exact absurd this (by simp)

/-- lists of such items, compared as Python compares lists -/
theorem list : StrictTotal (fun l : List α => ∀ x ∈ l, P x) (listEq eq) (listLt eq lt) := by
  refine ⟨?_, ?_, ?_, ?_, ?_, ?_⟩
  · intro a ha
    induction a with
    | nil => rfl
    | cons x l ih =>
      simp [listEq, S.refl x (ha x (by simp)), ih (fun y hy => ha y (by simp [hy]))]
  · intro a b ha hb h
    induction a generalizing b with
    | nil => cases b <;> simp_all [listEq]
    | cons x l ih =>
      cases b with
      | nil => simp [listEq] at h
      | cons y m =>
        simp only [listEq, Bool.and_eq_true] at h ⊢
        exact ⟨S.symm x y (ha x (by simp)) (hb y (by simp)) h.1,
          ih m (fun y hy => ha y (by simp [hy])) (fun y hy => hb y (by simp [hy])) h.2⟩
  · intro a b c ha hb hc h1 h2
    induction a generalizing b c with
    | nil => cases b <;> cases c <;> simp_all [listEq]
    | cons x l ih =>
      cases b with
      | nil => simp [listEq] at h1
      | cons y m =>
        cases c with
        | nil => simp [listEq] at h2
        | cons z n =>
          simp only [listEq, Bool.and_eq_true] at h1 h2 ⊢
          exact ⟨S.trans x y z (ha x (by simp)) (hb y (by simp)) (hc z (by simp)) h1.1 h2.1,
            ih m n (fun y hy => ha y (by simp [hy])) (fun y hy => hb y (by simp [hy]))
              (fun y hy => hc y (by simp [hy])) h1.2 h2.2⟩
  · intro a b ha hb h
    induction a generalizing b with
    | nil => cases b <;> simp_all [listEq, listLt]
    | cons x l ih =>
      cases b with
      | nil => simp [listEq] at h
      | cons y m =>
        simp only [listEq, Bool.and_eq_true] at h
        simp only [listLt, h.1, if_true]
        exact ih m (fun y hy => ha y (by simp [hy])) (fun y hy => hb y (by simp [hy])) h.2
  · intro a b c ha hb hc h1 h2
    induction a generalizing b c with
    | nil => cases b <;> cases c <;> simp_all [listLt]
    | cons x l ih =>
      cases b with
      | nil => simp [listLt] at h1
      | cons y m =>
        cases c with
        | nil => simp [listLt] at h2
        | cons z n =>
          have hx := ha x (by simp)
          have hy := hb y (by simp)
          have hz := hc z (by simp)
          simp only [listLt] at h1 h2 ⊢
          by_cases hxy : eq x y = true
          · rw [if_pos hxy] at h1
            by_cases hyz : eq y z = true
            · rw [if_pos hyz] at h2
              rw [if_pos (S.trans x y z hx hy hz hxy hyz)]
              exact ih m n (fun y hy => ha y (by simp [hy])) (fun y hy => hb y (by simp [hy]))
                (fun y hy => hc y (by simp [hy])) h1 h2
            · rw [if_neg hyz] at h2
              have := S.lt_of_eq_of_lt hx hy hz hxy h2
              rw [S.ne_of_lt hx hz this]; simpa using this
          · rw [if_neg hxy] at h1
            by_cases hyz : eq y z = true
            · have := S.lt_of_lt_of_eq hx hy hz h1 hyz
              rw [S.ne_of_lt hx hz this]; simpa using this
            · rw [if_neg hyz] at h2
              have := S.lt_trans x y z hx hy hz h1 h2
              rw [S.ne_of_lt hx hz this]; simpa using this
  · intro a b ha hb
    induction a generalizing b with
    | nil => cases b <;> simp [listEq, listLt]
    | cons x l ih =>
      cases b with
      | nil => simp [listLt]
      | cons y m =>
        have hx := ha x (by simp)
        have hy := hb y (by simp)
        simp only [listLt, listEq, Bool.and_eq_true]
        by_cases hxy : eq x y = true
        · rw [if_pos hxy, if_pos (S.symm x y hx hy hxy)]
          rcases ih m (fun y hy => ha y (by simp [hy])) (fun y hy => hb y (by simp [hy])) with h | h | h
          · exact Or.inl h
          · exact Or.inr (Or.inl ⟨hxy, h⟩)
          · exact Or.inr (Or.inr h)
        · have hyx : ¬ eq y x = true := fun h => hxy (S.symm y x hy hx h)
          rw [if_neg hxy, if_neg hyx]
          rcases S.tri x y hx hy with h | h | h
          · exact Or.inl h
          · exact absurd h hxy
          · exact Or.inr (Or.inr h)

end StrictTotal

/-! ### sorted -/
section sorted
variable {α : Type} {P : α → Prop} {eq lt : α → α → Bool}

theorem insertSorted_perm (x : α) (l : List α) : (insertSorted lt x l).Perm (x :: l) := by
  induction l with
  | nil => exact List.Perm.refl _
  | cons y l ih =>
    simp only [insertSorted]
    split
    · exact List.Perm.refl _
    · exact (List.Perm.cons y ih).trans (List.Perm.swap x y l)

theorem foldl_insert_perm (l acc : List α) :
    (l.foldl (fun acc x => insertSorted lt x acc) acc).Perm (acc ++ l) := by
  induction l generalizing acc with
  | nil => simp
  | cons x l ih =>
    simp only [List.foldl_cons]
    refine (ih _).trans ?_
    refine ((insertSorted_perm x acc).append_right l).trans ?_
    exact (List.perm_middle (l₁ := acc)).symm

theorem pySorted_perm (l : List α) : (pySorted lt l).Perm l := by
  have := foldl_insert_perm (lt := lt) l []
  simpa [pySorted] using this

theorem insertSorted_sorted (S : StrictTotal P eq lt) {x : α} {l : List α} (hx : P x)
    (hl : ∀ y ∈ l, P y) (h : l.Pairwise (fun a b => lt b a = false)) :
    (insertSorted lt x l).Pairwise (fun a b => lt b a = false) := by
  induction l with
  | nil => simp [insertSorted]
  | cons y l ih =>
    rw [List.pairwise_cons] at h
    have hy := hl y (by simp)
    simp only [insertSorted]
    split
    · rename_i hlt
      rw [List.pairwise_cons, List.pairwise_cons]
      refine ⟨?_, h.1, h.2⟩
      intro z hz
      rcases List.mem_cons.1 hz with rfl | hz
      · exact S.asymm hx hy hlt
      · cases hzx : lt z x with
        | false => rfl
        | true =>
          have := S.lt_trans z x y (hl z (by simp [hz])) hx hy hzx hlt
          rw [h.1 z hz] at this; exact absurd this (by simp)
    · rename_i hlt
      rw [List.pairwise_cons]
      refine ⟨?_, ih (fun y hy => hl y (by simp [hy])) h.2⟩
      intro z hz
      rcases List.mem_cons.1 ((insertSorted_perm x l).mem_iff.1 hz) with rfl | hz
      · simpa using hlt
      · exact h.1 z hz

theorem foldl_insert_sorted (S : StrictTotal P eq lt) (l acc : List α) (hl : ∀ y ∈ l, P y)
    (ha : ∀ y ∈ acc, P y) (h : acc.Pairwise (fun a b => lt b a = false)) :
    (l.foldl (fun acc x => insertSorted lt x acc) acc).Pairwise (fun a b => lt b a = false) := by
  induction l generalizing acc with
  | nil => simpa
  | cons x l ih =>
    simp only [List.foldl_cons]
    apply ih
    · exact fun y hy => hl y (by simp [hy])
    · intro y hy
      rcases List.mem_cons.1 ((insertSorted_perm x acc).mem_iff.1 hy) with rfl | hy
      · exact hl _ (by simp)
      · exact ha y hy
    · exact insertSorted_sorted S (hl x (by simp)) ha h

theorem pySorted_sorted (S : StrictTotal P eq lt) (l : List α) (hl : ∀ y ∈ l, P y) :
    (pySorted lt l).Pairwise (fun a b => lt b a = false) :=
  foldl_insert_sorted S l [] hl (by simp) (by simp)

/-- two sorted lists with the same items are equal, when `==` items are equal -/
theorem eq_of_perm_sorted (S : StrictTotal P eq lt) (heq : ∀ a b, P a → P b → eq a b = true → a = b)
    {l m : List α} (hl : ∀ y ∈ l, P y) (hp : l.Perm m) (h1 : l.Pairwise (fun a b => lt b a = false))
    (h2 : m.Pairwise (fun a b => lt b a = false)) : l = m := by
  induction l generalizing m with
  | nil => simpa using hp
  | cons x l ih =>
    cases m with
    | nil => exact absurd hp.length_eq (by simp)
    | cons y m =>
      rw [List.pairwise_cons] at h1 h2
      have hx := hl x (by simp)
      have hy : P y := hl y (hp.mem_iff.2 (by simp))
      have hxy : x = y := by
        rcases List.mem_cons.1 (hp.mem_iff.1 (List.mem_cons_self (a := x) (l := l))) with h | h
        · exact h
        · rcases List.mem_cons.1 (hp.mem_iff.2 (List.mem_cons_self (a := y) (l := m))) with h' | h'
          · exact h'.symm
          · have a1 := h2.1 x h
            have a2 := h1.1 y h'
            rcases S.tri x y hx hy with h3 | h3 | h3
            · rw [h3] at a1; simp at a1
            · exact heq x y hx hy h3
            · rw [h3] at a2; simp at a2
      subst hxy
      rw [ih (fun y hy => hl y (by simp [hy])) ((List.perm_cons x).1 hp) h1.2 h2.2]

end sorted

/-! ### bisect and distinct -/
section distinct
variable {α : Type} {P : α → Prop} {eq lt : α → α → Bool}

/-- strictly ascending -/
abbrev Asc (lt : α → α → Bool) (l : List α) : Prop := l.Pairwise (fun a b => lt a b = true)

theorem bisectLeftLoop_spec (S : StrictTotal P eq lt) {a : List α} (ha : ∀ y ∈ a, P y)
    (hs : Asc lt a) {x : α} (hx : P x) (lo hi : Nat) (hlh : lo ≤ hi) (hhi : hi ≤ a.length)
    (h1 : ∀ i y, i < lo → a[i]? = some y → lt y x = true)
    (h2 : ∀ i y, hi ≤ i → a[i]? = some y → lt y x = false) :
    let r := bisectLeftLoop lt a x lo hi
    r ≤ a.length ∧ (∀ i y, i < r → a[i]? = some y → lt y x = true) ∧
      (∀ i y, r ≤ i → a[i]? = some y → lt y x = false) := by
  rw [Asc, List.pairwise_iff_getElem] at hs
  fun_induction bisectLeftLoop lt a x lo hi with
  | case1 lo hi hlt mid hc ih =>
    have hm : mid < a.length := by omega
    have hmid : lt a[mid] x = true := by
      rw [List.getElem?_eq_getElem hm] at hc; exact hc
    apply ih (by omega) hhi
    · intro i y hi' hy
      obtain ⟨hil, rfl⟩ := List.getElem?_eq_some_iff.1 hy
      by_cases hi2 : i = mid
      · subst hi2; exact hmid
      · exact S.lt_trans _ _ _ (ha _ (List.getElem_mem _)) (ha _ (List.getElem_mem _)) hx
          (hs i mid hil hm (by omega)) hmid
    · exact h2
  | case2 lo hi hlt mid hc ih =>
    have hm : mid < a.length := by omega
    have hmid : lt a[mid] x = false := by
      rw [List.getElem?_eq_getElem hm] at hc; simpa using hc
    apply ih (by omega) (by omega) h1
    intro i y hi' hy
    obtain ⟨hil, rfl⟩ := List.getElem?_eq_some_iff.1 hy
    by_cases hi2 : i = mid
    · subst hi2; exact hmid
    · cases hz : lt a[i] x with
      | false => rfl
      | true =>
        have := S.lt_trans _ _ _ (ha _ (List.getElem_mem _)) (ha _ (List.getElem_mem _)) hx
          (hs mid i hm hil (by omega)) hz
        rw [hmid] at this; exact absurd this (by simp)
  | case3 lo hi hge =>
    have : lo = hi := by omega
    subst this
    exact ⟨hhi, h1, h2⟩

theorem bisectLeft_spec (S : StrictTotal P eq lt) {a : List α} (ha : ∀ y ∈ a, P y)
    (hs : Asc lt a) {x : α} (hx : P x) :
    let r := bisectLeft lt a x
    r ≤ a.length ∧ (∀ i y, i < r → a[i]? = some y → lt y x = true) ∧
      (∀ i y, r ≤ i → a[i]? = some y → lt y x = false) := by
  apply bisectLeftLoop_spec S ha hs hx 0 a.length (by omega) (by omega)
  · intro i y h; omega
  · intro i y h h'
    rw [List.getElem?_eq_none (by omega)] at h'; simp at h'

/-- invariant of `distinct`: `unique` is sorted and holds exactly what was yielded -/
structure DInv (P : α → Prop) (lt : α → α → Bool) (st : List α × List α) : Prop where
  perm : st.1.Perm st.2
  asc : Asc lt st.2
  ok : ∀ y ∈ st.2, P y

theorem distinctStep_spec (S : StrictTotal P eq lt) {st : List α × List α} (h : DInv P lt st)
    {x : α} (hx : P x) :
    DInv P lt (distinctStep eq lt st x) ∧
    ((∃ y ∈ st.1, eq y x = true) → (distinctStep eq lt st x).1 = st.1) ∧
    ((¬ ∃ y ∈ st.1, eq y x = true) → (distinctStep eq lt st x).1 = st.1 ++ [x]) := by
  obtain ⟨out, a⟩ := st
  obtain ⟨hp, hasc, hok⟩ := h
  simp only at hp hasc hok
  obtain ⟨hr, h1, h2⟩ := bisectLeft_spec S hok hasc hx
  have hmem : (∃ y ∈ out, eq y x = true) ↔ (∃ y ∈ a, eq y x = true) := by
    constructor
    · rintro ⟨y, hy, h⟩; exact ⟨y, hp.mem_iff.1 hy, h⟩
    · rintro ⟨y, hy, h⟩; exact ⟨y, hp.mem_iff.2 hy, h⟩
  simp only [hmem]
  simp only [distinctStep]
  generalize bisectLeft lt a x = r at *
  by_cases hlen : r < a.length
  · have hget := List.getElem?_eq_getElem hlen
    have hgr : lt a[r] x = false := h2 r _ (Nat.le_refl _) hget
    have hPr : P a[r] := hok _ (List.getElem_mem _)
    by_cases he : eq a[r] x = true
    · -- present
      have hc : ¬ (r ≥ a.length ∨ notEqAt eq a[r]? x = true) := by
        rw [hget]; simp [he, notEqAt]; omega
      rw [if_neg hc]
      refine ⟨⟨hp, hasc, hok⟩, fun _ => rfl, ?_⟩
      intro hn
      exact absurd ⟨a[r], List.getElem_mem _, he⟩ hn
    · have hc : (r ≥ a.length ∨ notEqAt eq a[r]? x = true) := by
        rw [hget]; right; simpa [notEqAt] using he
      rw [if_pos hc]
      have hgt : lt x a[r] = true := by
        rcases S.tri a[r] x hPr hx with h | h | h
        · rw [hgr] at h; simp at h
        · exact absurd h he
        · exact h
      have hdrop : ∀ z ∈ a.drop r, lt x z = true := by
        intro z hz
        rw [List.mem_iff_getElem] at hz
        obtain ⟨i, hi, rfl⟩ := hz
        rw [List.getElem_drop]
        by_cases hi0 : i = 0
        · subst hi0; exact hgt
        · rw [Asc, List.pairwise_iff_getElem] at hasc
          exact S.lt_trans _ _ _ hx hPr (hok _ (List.getElem_mem _)) hgt
            (hasc r (r + i) hlen (by simp at hi; omega) (by omega))
      have htake : ∀ z ∈ a.take r, lt z x = true := by
        intro z hz
        rw [List.mem_iff_getElem] at hz
        obtain ⟨i, hi, rfl⟩ := hz
        simp only [List.length_take] at hi
        rw [List.getElem_take]
        exact h1 i _ (by omega) (List.getElem?_eq_getElem (by omega))
      refine ⟨⟨?_, ?_, ?_⟩, ?_, fun _ => rfl⟩
      · simp only
        refine (List.perm_append_comm (l₁ := out) (l₂ := [x])).trans ?_
        simp only [List.singleton_append]
        refine (List.Perm.cons x hp).trans ?_
        have hta : (x :: a).Perm (x :: (a.take r ++ a.drop r)) := by
          rw [List.take_append_drop]
        exact hta.trans (List.perm_middle (l₁ := a.take r)).symm
      · simp only [Asc]
        rw [List.pairwise_append, List.pairwise_cons]
        refine ⟨hasc.sublist (List.take_sublist _ _), ⟨hdrop, hasc.sublist (List.drop_sublist _ _)⟩, ?_⟩
        intro u hu v hv
        have hu' := htake u hu
        rcases List.mem_cons.1 hv with rfl | hv
        · exact hu'
        · exact S.lt_trans _ _ _ (hok _ (List.mem_of_mem_take hu)) hx
            (hok _ (List.mem_of_mem_drop hv)) hu' (hdrop v hv)
      · intro y hy
        rcases List.mem_append.1 hy with hy | hy
        · exact hok _ (List.mem_of_mem_take hy)
        · rcases List.mem_cons.1 hy with rfl | hy
          · exact hx
          · exact hok _ (List.mem_of_mem_drop hy)
      · rintro ⟨y, hy, hyx⟩
        exfalso
        rw [← List.take_append_drop r a] at hy
        rcases List.mem_append.1 hy with hy | hy
        · have := htake y hy
          rw [S.irrefl y x (hok _ (List.mem_of_mem_take hy)) hx hyx] at this; simp at this
        · have hPy := hok _ (List.mem_of_mem_drop hy)
          have := hdrop y hy
          rw [S.irrefl x y hx hPy (S.symm y x hPy hx hyx)] at this; simp at this
  · have hc : (r ≥ a.length ∨ notEqAt eq a[r]? x = true) := by
      left; omega
    rw [if_pos hc]
    have hr' : r = a.length := by omega
    subst hr'
    have htake : ∀ z ∈ a, lt z x = true := by
      intro z hz
      rw [List.mem_iff_getElem] at hz
      obtain ⟨i, hi, rfl⟩ := hz
      exact h1 i _ hi (List.getElem?_eq_getElem hi)
    refine ⟨⟨?_, ?_, ?_⟩, ?_, fun _ => rfl⟩
    · simp only [List.take_length, List.drop_length]
      exact hp.append_right _
    · simp only [Asc, List.take_length, List.drop_length]
      rw [List.pairwise_append]
      refine ⟨hasc, by simp, ?_⟩
      intro u hu v hv
      simp at hv; subst hv; exact htake u hu
    · intro y hy
      simp at hy
      rcases hy with hy | rfl
      · exact hok _ hy
      · exact hx
    · rintro ⟨y, hy, hyx⟩
      exfalso
      have := htake y hy
      rw [S.irrefl y x (hok _ hy) hx hyx] at this; simp at this

theorem distinct_inv (S : StrictTotal P eq lt) (l : List α) (hl : ∀ y ∈ l, P y)
    (st : List α × List α) (h : DInv P lt st) :
    DInv P lt (l.foldl (distinctStep eq lt) st) := by
  induction l generalizing st with
  | nil => exact h
  | cons x l ih =>
    exact ih (fun y hy => hl y (by simp [hy])) _ (distinctStep_spec S h (hl x (by simp))).1

theorem distinct_nil : distinct eq lt [] = [] := rfl

theorem DInv_nil : DInv P lt ([], []) := ⟨List.Perm.refl _, by simp, by simp⟩

theorem distinct_mem_iff_aux (S : StrictTotal P eq lt) (l : List α) (hl : ∀ y ∈ l, P y) :
    (∀ y ∈ distinct eq lt l, y ∈ l) ∧ (∀ x ∈ l, ∃ y ∈ distinct eq lt l, eq y x = true) ∧
    ∀ x, P x → ((∃ y ∈ l, eq y x = true) → distinct eq lt (l ++ [x]) = distinct eq lt l) ∧
      ((¬ ∃ y ∈ l, eq y x = true) → distinct eq lt (l ++ [x]) = distinct eq lt l ++ [x]) := by
  have hkey : ∀ (l : List α), (∀ y ∈ l, P y) → (∀ y ∈ distinct eq lt l, y ∈ l) →
      (∀ x ∈ l, ∃ y ∈ distinct eq lt l, eq y x = true) → ∀ x, P x →
      ((∃ y ∈ l, eq y x = true) → distinct eq lt (l ++ [x]) = distinct eq lt l) ∧
      ((¬ ∃ y ∈ l, eq y x = true) → distinct eq lt (l ++ [x]) = distinct eq lt l ++ [x]) := by
    intro l hl h1 h2 x hx
    have hinv := distinct_inv S l hl _ (DInv_nil (P := P) (lt := lt))
    have hstep := distinctStep_spec S hinv hx
    have heq : distinct eq lt (l ++ [x]) = (distinctStep eq lt (l.foldl (distinctStep eq lt) ([], [])) x).1 := by
      simp [distinct, List.foldl_append]
    rw [heq]
    constructor
    · rintro ⟨y, hy, hyx⟩
      apply hstep.2.1
      obtain ⟨z, hz, hzy⟩ := h2 y hy
      exact ⟨z, hz, S.trans z y x (hl z (h1 z hz)) (hl y hy) hx hzy hyx⟩
    · intro hn
      apply hstep.2.2
      rintro ⟨y, hy, hyx⟩
      exact hn ⟨y, h1 y hy, hyx⟩
  have hmain : ∀ (l : List α), (∀ y ∈ l, P y) → (∀ y ∈ distinct eq lt l, y ∈ l) ∧
      (∀ x ∈ l, ∃ y ∈ distinct eq lt l, eq y x = true) := by
    intro l
    induction l using List.reverseRecOn with
    | nil => intro _; simp [distinct_nil]
    | append_singleton l x ih =>
      intro hl
      have hl' : ∀ y ∈ l, P y := fun y hy => hl y (by simp [hy])
      have hx : P x := hl x (by simp)
      obtain ⟨h1, h2⟩ := ih hl'
      have hk := hkey l hl' h1 h2 x hx
      by_cases hex : ∃ y ∈ l, eq y x = true
      · rw [hk.1 hex]
        refine ⟨fun y hy => by simp [h1 y hy], ?_⟩
        intro z hz
        rcases List.mem_append.1 hz with hz | hz
        · exact h2 z hz
        · simp at hz; subst hz
          obtain ⟨y, hy, hyx⟩ := hex
          obtain ⟨u, hu, huy⟩ := h2 y hy
          exact ⟨u, hu, S.trans u y _ (hl' u (h1 u hu)) (hl' y hy) hx huy hyx⟩
      · rw [hk.2 hex]
        refine ⟨?_, ?_⟩
        · intro y hy
          rcases List.mem_append.1 hy with hy | hy
          · simp [h1 y hy]
          · simp at hy; simp [hy]
        · intro z hz
          rcases List.mem_append.1 hz with hz | hz
          · obtain ⟨u, hu, huz⟩ := h2 z hz
            exact ⟨u, by simp [hu], huz⟩
          · simp at hz; subst hz
            exact ⟨z, by simp, S.refl z hx⟩
  obtain ⟨h1, h2⟩ := hmain l hl
  exact ⟨h1, h2, hkey l hl h1 h2⟩

theorem distinct_pairwise (S : StrictTotal P eq lt) (l : List α) (hl : ∀ y ∈ l, P y) :
    (distinct eq lt l).Pairwise (fun a b => eq a b = false) := by
  have hinv := distinct_inv S l hl _ (DInv_nil (P := P) (lt := lt))
  have h1 : (l.foldl (distinctStep eq lt) ([], [])).2.Pairwise (fun a b => eq a b = false ∧ eq b a = false) := by
    have hp : (l.foldl (distinctStep eq lt) ([], [])).2.Pairwise (fun a b => P a ∧ P b ∧ lt a b = true) := by
      have hok := hinv.ok
      have hasc := hinv.asc
      generalize (l.foldl (distinctStep eq lt) ([], [])).2 = a at *
      clear hinv
      induction a with
      | nil => simp
      | cons x a ih =>
        rw [Asc, List.pairwise_cons] at hasc
        rw [List.pairwise_cons]
        exact ⟨fun y hy => ⟨hok _ (by simp), hok _ (by simp [hy]), hasc.1 y hy⟩,
          ih (fun y hy => hok y (by simp [hy])) hasc.2⟩
    refine hp.imp ?_
    rintro a b ⟨ha, hb, hlt⟩
    refine ⟨S.ne_of_lt ha hb hlt, ?_⟩
    cases h : eq b a with
    | false => rfl
    | true =>
      have := S.irrefl a b ha hb (S.symm b a hb ha h)
      rw [hlt] at this; simp at this
  have h2 := (List.Perm.pairwise_iff (R := fun a b => eq a b = false ∧ eq b a = false)
    (fun h => ⟨h.2, h.1⟩) hinv.perm).2 h1
  exact h2.imp (fun h => h.1)

theorem distinct_sublist (S : StrictTotal P eq lt) (l : List α) (hl : ∀ y ∈ l, P y) :
    (distinct eq lt l).Sublist l := by
  induction l using List.reverseRecOn with
  | nil => simp [distinct_nil]
  | append_singleton l x ih =>
    have hl' : ∀ y ∈ l, P y := fun y hy => hl y (by simp [hy])
    have ih := ih hl'
    have hk := (distinct_mem_iff_aux S l hl').2.2 x (hl x (by simp))
    by_cases hex : ∃ y ∈ l, eq y x = true
    · rw [hk.1 hex]; exact ih.trans (List.sublist_append_left _ _)
    · rw [hk.2 hex]; exact ih.append (List.Sublist.refl _)

end distinct
end Verif.Proofs
