import Verif.Proofs.Category

namespace Verif.Props
open Verif.Py Verif.Model Verif.Spec Verif.Proofs

theorem categoryIter_open (l : List Int) (i : Int) (hp : Positive l) :
    categoryIter (l ++ [-1]) i = categoryIter l i ++ [i / prodI l] := by
  induction l generalizing i with
  | nil => simp [categoryIter, prodI]
  | cons x l ih =>
    have hx := hp x (by simp)
    have : x ≠ -1 := by omega
    simp only [List.cons_append, categoryIter, this, ne_eq, not_false_eq_true, if_true, prodI]
    rw [ih _ (fun y hy => hp y (by simp [hy])), Int.ediv_ediv, if_neg (by omega), Int.sub_zero]

/-- **C03.** A `SubCategory` whose first size is -1 has no upper bound: tuples with any integer in front and digits in range behind it
    correspond one to one to all integers, `index` and `category` are mutually inverse there, and `len` raises `TypeError`. -/
theorem C03_open_category (ts : List Int) (hp : Positive ts) :
    ∃ c, SubCat.make (-1 :: ts) = .ok c ∧ SubCat.len c = .error .typeError ∧
      (∀ x ds, Digits ts ds → SubCat.index c (x :: ds) = .ok (x * prodI ts + radix ts ds) ∧
        SubCat.category c (x * prodI ts + radix ts ds) = .ok (x :: ds)) ∧
      (∀ i, ∃ x ds, SubCat.category c i = .ok (x :: ds) ∧ Digits ts ds ∧ SubCat.index c (x :: ds) = .ok i) ∧
      (∀ ds, ds.length ≠ ts.length + 1 → SubCat.index c ds = .error .assertionError) := by
  have hcat : ∀ i, SubCat.category ⟨-1 :: ts⟩ i = .ok (i / prodI ts :: catBE ts i) := by
    intro i
    have hr : Positive ts.reverse := fun x hx => hp x (by simpa using hx)
    simp only [SubCat.category, SubCat.max?, List.headD_cons, if_true, List.reverse_cons]
    rw [categoryIter_open _ _ hr, List.reverse_append, categoryIter_reverse hp, prodI_reverse]
    rfl
  have hidx : ∀ x ds, ds.length = ts.length → SubCat.index ⟨-1 :: ts⟩ (x :: ds) = .ok (x * prodI ts + radix ts ds) := by
    intro x ds hd
    simp only [SubCat.index, List.length_cons, hd, if_true, List.tail_cons]
    rw [indexLoop_eq _ _ _ hd]
  have hP := prodI_pos hp
  refine ⟨⟨-1 :: ts⟩, ?_, rfl, ?_, ?_, ?_⟩
  · have : ts.all (fun x => decide (0 < x)) = true := List.all_eq_true.2 (fun x hx => by simpa using hp x hx)
    simp [SubCat.make, this]
  · intro x ds hd
    obtain ⟨a, b⟩ := radix_range hp hd
    refine ⟨hidx x ds hd.1, ?_⟩
    have e : x * prodI ts + radix ts ds = radix ts ds + prodI ts * x := by rw [Int.mul_comm]; omega
    rw [hcat, e, catBE_shift hp, catBE_radix hp hd, Int.add_mul_ediv_left _ _ (by omega : prodI ts ≠ 0),
      Int.ediv_eq_zero_of_lt a b, Int.zero_add]
  · intro i
    refine ⟨_, _, hcat i, catBE_digits hp i, ?_⟩
    rw [hidx _ _ (catBE_digits hp i).1, radix_catBE hp, Int.mul_comm]
    exact congrArg Except.ok (Int.mul_ediv_add_emod i (prodI ts))
  · intro ds hd
    simp only [SubCat.index, List.length_cons]
    rw [if_neg hd]

/-- **C03.** So it cannot be a block of a `MixedCategory`, wherever it stands: the constructor takes `len` of every block. -/
theorem C03_open_block (before after : List SubCat) (ts : List Int) :
    MixedCat.make (before ++ ⟨-1 :: ts⟩ :: after) = .error .typeError := by
  have : (before ++ ⟨-1 :: ts⟩ :: after).mapM SubCat.len = Except.error (α := List Int) PyErr.typeError := by
    induction before with
    | nil =>
      rw [List.nil_append, List.mapM_cons]
      rfl
    | cons b bs ih =>
      rw [List.cons_append, List.mapM_cons, ih]
      unfold SubCat.len
      cases b.max? <;> rfl
  rw [MixedCat.make, this]

/-- an open category with blocks of three and four, at a negative and at a large number -/
example : Positive [3, 4] ∧ Digits [3, 4] [2, 1] ∧ SubCat.category ⟨[-1, 3, 4]⟩ (-3) = .ok [-1, 2, 1] ∧
    SubCat.index ⟨[-1, 3, 4]⟩ [1000, 2, 1] = .ok 12009 := by
  refine ⟨by simp [Positive], ⟨rfl, ?_⟩, by decide, by decide⟩
  intro j h h'
  match j, h with
  | 0, _ => simp
  | 1, _ => simp

end Verif.Props
