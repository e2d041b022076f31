import Verif.Model.Category
import Verif.Spec.Radix

namespace Verif.Proofs
open Verif.Py Verif.Model Verif.Spec

/-! ### mixed radix -/

theorem prodI_pos {ts : List Int} (h : Positive ts) : 0 < prodI ts := by
  induction ts with
  | nil => simp [prodI]
  | cons t ts ih =>
    exact Int.mul_pos (h t (by simp)) (ih (fun x hx => h x (by simp [hx])))

theorem digits_cons {t d : Int} {ts ds : List Int} :
    Digits (t :: ts) (d :: ds) ↔ (0 ≤ d ∧ d < t) ∧ Digits ts ds := by
  unfold Digits
  constructor
  · rintro ⟨h1, h2⟩
    refine ⟨h2 0 (by simp) (by simp), by simpa using h1, fun j h h' => ?_⟩
    exact h2 (j + 1) (by simpa using h) (by simpa using h')
  · rintro ⟨h0, h1, h2⟩
    refine ⟨by simpa using h1, fun j h h' => ?_⟩
    cases j with
    | zero => exact h0
    | succ j => exact h2 j (by simpa using h) (by simpa using h')

theorem digits_nil_left {ds : List Int} : Digits [] ds ↔ ds = [] := by
  unfold Digits
  constructor
  · rintro ⟨h, _⟩; exact List.length_eq_zero_iff.1 h
  · rintro rfl; exact ⟨rfl, fun j h => by simp at h⟩

theorem radix_range {ts ds : List Int} (hp : Positive ts) (hd : Digits ts ds) :
    0 ≤ radix ts ds ∧ radix ts ds < prodI ts := by
  induction ts generalizing ds with
  | nil => rw [digits_nil_left.1 hd]; simp [radix, prodI]
  | cons t ts ih =>
    cases ds with
    | nil => simp [Digits] at hd
    | cons d ds =>
      obtain ⟨⟨a, b⟩, hd⟩ := digits_cons.1 hd
      have hp' : Positive ts := fun x hx => hp x (by simp [hx])
      obtain ⟨c, e⟩ := ih hp' hd
      have hP := prodI_pos hp'
      simp only [radix, prodI]
      have h1 : 0 ≤ d * prodI ts := Int.mul_nonneg a (by omega)
      have h2 : (d + 1) * prodI ts ≤ t * prodI ts := Int.mul_le_mul_of_nonneg_right (by omega) (by omega)
      rw [Int.add_mul] at h2
      omega

/-- big-endian digits of any integer -/
def catBE : List Int → Int → List Int
  | [], _ => []
  | t :: ts, i => (i / prodI ts) % t :: catBE ts i

theorem catBE_shift {ts : List Int} (hp : Positive ts) (i k : Int) :
    catBE ts (i + prodI ts * k) = catBE ts i := by
  induction ts generalizing k with
  | nil => rfl
  | cons t ts ih =>
    have hp' : Positive ts := fun x hx => hp x (by simp [hx])
    have hP := prodI_pos hp'
    simp only [catBE, prodI]
    have e : t * prodI ts * k = prodI ts * (t * k) := by
      rw [Int.mul_comm t, Int.mul_assoc]
    rw [e, ih hp', Int.add_mul_ediv_left _ _ (by omega : prodI ts ≠ 0), Int.add_mul_emod_self_left]

theorem catBE_digits {ts : List Int} (hp : Positive ts) (i : Int) : Digits ts (catBE ts i) := by
  induction ts with
  | nil => exact digits_nil_left.2 rfl
  | cons t ts ih =>
    have ht := hp t (by simp)
    exact digits_cons.2 ⟨⟨Int.emod_nonneg _ (by omega), Int.emod_lt_of_pos _ ht⟩,
      ih (fun x hx => hp x (by simp [hx]))⟩

theorem radix_catBE {ts : List Int} (hp : Positive ts) (i : Int) :
    radix ts (catBE ts i) = i % prodI ts := by
  induction ts with
  | nil => simp [radix, prodI, catBE, Int.emod_one]
  | cons t ts ih =>
    have hp' : Positive ts := fun x hx => hp x (by simp [hx])
    have hP := prodI_pos hp'
    have ht := hp t (by simp)
    simp only [radix, catBE, prodI]
    rw [ih hp']
    have h1 := Int.mul_ediv_add_emod i (prodI ts)
    have h2 := Int.mul_ediv_add_emod (i / prodI ts) t
    have h3 := Int.emod_nonneg i (by omega : prodI ts ≠ 0)
    have h4 := Int.emod_lt_of_pos i hP
    have h5 := Int.emod_nonneg (i / prodI ts) (by omega : t ≠ 0)
    have h6 := Int.emod_lt_of_pos (i / prodI ts) ht
    generalize hr : i % prodI ts = r at *
    generalize hq : i / prodI ts = q at *
    generalize hr' : q % t = r' at *
    generalize hq' : q / t = q' at *
    generalize prodI ts = P at *
    have : i = (r' * P + r) + (t * P) * q' := by
      rw [← h1, ← h2, Int.mul_add]
      have e1 : P * (t * q') = t * P * q' := by rw [← Int.mul_assoc, Int.mul_comm P t]
      have e2 : P * r' = r' * P := Int.mul_comm _ _
      omega
    rw [this, Int.add_mul_emod_self_left]
    have h7 : 0 ≤ r' * P := Int.mul_nonneg h5 (by omega)
    have h8 : (r' + 1) * P ≤ t * P := Int.mul_le_mul_of_nonneg_right (by omega) (by omega)
    rw [Int.add_mul] at h8
    exact (Int.emod_eq_of_lt (by omega) (by omega)).symm

theorem catBE_radix {ts ds : List Int} (hp : Positive ts) (hd : Digits ts ds) :
    catBE ts (radix ts ds) = ds := by
  induction ts generalizing ds with
  | nil => rw [digits_nil_left.1 hd]; rfl
  | cons t ts ih =>
    cases ds with
    | nil => simp [Digits] at hd
    | cons d ds =>
      obtain ⟨⟨a, b⟩, hd⟩ := digits_cons.1 hd
      have hp' : Positive ts := fun x hx => hp x (by simp [hx])
      have hP := prodI_pos hp'
      obtain ⟨c, e⟩ := radix_range hp' hd
      simp only [radix, catBE]
      have h1 : d * prodI ts + radix ts ds = radix ts ds + prodI ts * d := by
        rw [Int.mul_comm]; omega
      rw [h1, catBE_shift hp', ih hp' hd, Int.add_mul_ediv_left _ _ (by omega : prodI ts ≠ 0),
        Int.ediv_eq_zero_of_lt c e, Int.zero_add, Int.emod_eq_of_lt a b]

/-! ### SubCategory -/

theorem foldl_mul (l : List Int) (a : Int) :
    l.foldl (fun x y => x * y) a = a * l.foldl (fun x y => x * y) 1 := by
  induction l generalizing a with
  | nil => simp
  | cons b l ih =>
    simp only [List.foldl_cons, Int.one_mul]
    rw [ih (a * b), ih b, Int.mul_assoc]

theorem foldl_mul_reverse (l : List Int) : l.reverse.foldl (fun x y => x * y) 1 = prodI l := by
  induction l with
  | nil => rfl
  | cons b l ih =>
    rw [List.reverse_cons, List.foldl_append, ih]
    simp [prodI, Int.mul_comm]

theorem categoryIter_append (l : List Int) (t i : Int) (hp : Positive l) (ht : 0 < t) :
    categoryIter (l ++ [t]) i = categoryIter l i ++ [(i / prodI l) % t] := by
  induction l generalizing i with
  | nil =>
    have : t ≠ -1 := by omega
    simp [categoryIter, this, prodI]
  | cons x l ih =>
    have hx := hp x (by simp)
    have : x ≠ -1 := by omega
    have hp' : Positive l := fun y hy => hp y (by simp [hy])
    have hP := prodI_pos hp'
    simp only [List.cons_append, categoryIter, this, ne_eq, not_false_eq_true, if_true, prodI]
    rw [ih _ hp', Int.ediv_ediv, if_neg (by omega), Int.sub_zero]

theorem prodI_append (l m : List Int) : prodI (l ++ m) = prodI l * prodI m := by
  induction l with
  | nil => simp [prodI]
  | cons x l ih => simp only [List.cons_append, prodI, ih, Int.mul_assoc]

theorem prodI_reverse (l : List Int) : prodI l.reverse = prodI l := by
  induction l with
  | nil => rfl
  | cons x l ih => simp [prodI_append, prodI, ih, Int.mul_comm]

theorem categoryIter_reverse {ts : List Int} (hp : Positive ts) (i : Int) :
    (categoryIter ts.reverse i).reverse = catBE ts i := by
  induction ts with
  | nil => rfl
  | cons t ts ih =>
    have hp' : Positive ts := fun x hx => hp x (by simp [hx])
    rw [List.reverse_cons, categoryIter_append _ _ _ (fun x hx => hp' x (by simpa using hx)) (hp t (by simp)),
      List.reverse_append, ih hp', prodI_reverse]
    rfl

theorem max?_pos {ts : List Int} (hne : ts ≠ []) (hp : Positive ts) :
    (SubCat.mk ts).max? = some (prodI ts) := by
  unfold SubCat.max?
  cases ts with
  | nil => exact absurd rfl hne
  | cons t ts =>
    have := hp t (by simp)
    show (if t = -1 then none else _) = _
    rw [if_neg (by omega), foldl_mul_reverse]

theorem sub_category {ts : List Int} (hne : ts ≠ []) (hp : Positive ts) (i : Int) :
    (SubCat.mk ts).category i = if i < prodI ts then .ok (catBE ts i) else .error .assertionError := by
  unfold SubCat.category
  rw [max?_pos hne hp, categoryIter_reverse hp]
  by_cases h : i < prodI ts <;> simp [h]

theorem indexLoop_eq (a : Int) (ts ds : List Int) (h : ds.length = ts.length) :
    indexLoop a (ds.zip ts) = a * prodI ts + radix ts ds := by
  induction ts generalizing a ds with
  | nil => cases ds with
    | nil => simp [indexLoop, prodI, radix]
    | cons _ _ => simp at h
  | cons t ts ih => cases ds with
    | nil => simp at h
    | cons d ds =>
      simp only [List.zip_cons_cons, indexLoop]
      rw [ih _ _ (by simpa using h)]
      simp only [prodI, radix]
      rw [Int.add_mul, Int.mul_assoc, Int.add_assoc]

theorem sub_index {t : Int} {ts ds : List Int} (h : ds.length = ts.length + 1) :
    (SubCat.mk (t :: ts)).index ds = .ok (radix (t :: ts) ds) := by
  unfold SubCat.index
  simp only [List.length_cons]
  rw [if_pos h]
  cases ds with
  | nil => simp at h
  | cons d ds =>
    simp only [List.tail_cons]
    rw [indexLoop_eq _ _ _ (by simpa using h)]
    rfl

/-! ### bisect -/

theorem bisectRightLoop_spec (a : List Int) (x : Int) (hs : a.Pairwise (· ≤ ·)) (lo hi : Nat)
    (h1 : lo ≤ hi) (h2 : hi ≤ a.length)
    (hlo : ∀ j (h : j < a.length), j < lo → a[j] ≤ x) (hhi : ∀ j (h : j < a.length), hi ≤ j → x < a[j]) :
    bisectRightLoop a x lo hi ≤ a.length ∧
    (∀ j (h : j < a.length), j < bisectRightLoop a x lo hi → a[j] ≤ x) ∧
    (∀ j (h : j < a.length), bisectRightLoop a x lo hi ≤ j → x < a[j]) := by
  have mono : ∀ i j (hi : i < a.length) (hj : j < a.length), i ≤ j → a[i] ≤ a[j] := by
    intro i j hi hj hij
    by_cases he : i = j
    · subst he; exact Int.le_refl _
    · exact List.pairwise_iff_getElem.1 hs i j hi hj (by omega)
  fun_induction bisectRightLoop a x lo hi with
  | case1 lo hi hlt mid hc ih =>
    have hm : mid < hi := by omega
    have hma : mid < a.length := by omega
    rw [List.getElem?_eq_getElem hma] at hc
    simp only [decide_eq_true_eq] at hc
    exact ih (by omega) (by omega) hlo (fun j h hj => by have := mono mid j hma h hj; omega)
  | case2 lo hi hlt mid hc ih =>
    have hma : mid < a.length := by omega
    rw [List.getElem?_eq_getElem hma] at hc
    simp only [decide_eq_true_eq] at hc
    exact ih (by omega) (by omega) (fun j h hj => by have := mono j mid h hma (by omega); omega) hhi
  | case3 lo hi hlt => exact ⟨by omega, hlo, fun j h hj => hhi j h (by omega)⟩

theorem bisectRight_eq {a : List Int} {x : Int} (hs : a.Pairwise (· ≤ ·)) {k : Nat} (hk : k ≤ a.length)
    (h1 : ∀ j (h : j < a.length), j < k → a[j] ≤ x) (h2 : ∀ j (h : j < a.length), k ≤ j → x < a[j]) :
    bisectRight a x = k := by
  obtain ⟨b1, b2, b3⟩ := bisectRightLoop_spec a x hs 0 a.length (by omega) (Nat.le_refl _)
    (by intros; omega) (by intros; omega)
  unfold bisectRight
  by_cases hlt : bisectRightLoop a x 0 a.length < k
  · have := b3 _ (by omega) (Nat.le_refl _)
    have := h1 _ (by omega) hlt
    omega
  · by_cases hgt : k < bisectRightLoop a x 0 a.length
    · have := b2 k (by omega) hgt
      have := h2 k (by omega) (Nat.le_refl _)
      omega
    · omega

/-! ### MixedCategory -/

theorem accumulate_length (s : Int) (ls : List Int) : (accumulate s ls).length = ls.length + 1 := by
  induction ls generalizing s with
  | nil => rfl
  | cons l ls ih => simp [accumulate, ih]

theorem accumulate_get (s : Int) (ls : List Int) (j : Nat) (h : j < (accumulate s ls).length) :
    (accumulate s ls)[j] = s + (ls.take j).sum := by
  induction ls generalizing s j with
  | nil =>
    have : j = 0 := by simp [accumulate] at h; omega
    subst this; simp [accumulate]
  | cons l ls ih =>
    cases j with
    | zero => simp [accumulate]
    | succ j =>
      simp only [accumulate, List.getElem_cons_succ, List.take_succ_cons, List.sum_cons]
      rw [ih]
      omega

theorem accumulate_ge (s : Int) (ls : List Int) (hp : Positive ls) : ∀ x ∈ accumulate s ls, s ≤ x := by
  induction ls generalizing s with
  | nil => simp [accumulate]
  | cons l ls ih =>
    intro x hx
    simp only [accumulate, List.mem_cons] at hx
    rcases hx with rfl | hx
    · exact Int.le_refl _
    · have := ih (s + l) (fun y hy => hp y (by simp [hy])) x hx
      have := hp l (by simp)
      omega

theorem accumulate_sorted (s : Int) (ls : List Int) (hp : Positive ls) :
    (accumulate s ls).Pairwise (· ≤ ·) := by
  induction ls generalizing s with
  | nil => simp [accumulate]
  | cons l ls ih =>
    have hp' : Positive ls := fun y hy => hp y (by simp [hy])
    simp only [accumulate, List.pairwise_cons]
    refine ⟨fun x hx => ?_, ih _ hp'⟩
    have := accumulate_ge (s + l) ls hp' x hx
    have := hp l (by simp)
    omega

theorem take_sum_mono (ls : List Int) (hp : Positive ls) {i j : Nat} (h : i ≤ j) :
    (ls.take i).sum ≤ (ls.take j).sum := by
  induction ls generalizing i j with
  | nil => simp
  | cons l ls ih =>
    have hp' : Positive ls := fun y hy => hp y (by simp [hy])
    have := hp l (by simp)
    cases i with
    | zero =>
      cases j with
      | zero => simp
      | succ j =>
        have := ih hp' (Nat.zero_le j)
        simp at this
        simp only [List.take_zero, List.sum_nil, List.take_succ_cons, List.sum_cons]; omega
    | succ i =>
      cases j with
      | zero => omega
      | succ j =>
        have := ih hp' (show i ≤ j by omega)
        simp only [List.take_succ_cons, List.sum_cons]; omega

theorem take_succ_sum (ls : List Int) {i : Nat} (h : i < ls.length) :
    (ls.take (i + 1)).sum = (ls.take i).sum + ls[i] := by
  induction ls generalizing i with
  | nil => simp at h
  | cons l ls ih =>
    cases i with
    | zero => simp
    | succ i =>
      have := ih (i := i) (by simpa using h)
      simp only [List.take_succ_cons, List.sum_cons, List.getElem_cons_succ] at *
      omega

/-- every number below the total lies in exactly one block -/
theorem exists_block (ls : List Int) (i : Int) (h0 : 0 ≤ i) (h : i < ls.sum) :
    ∃ b, ∃ hb : b < ls.length, (ls.take b).sum ≤ i ∧ i < (ls.take b).sum + ls[b] := by
  induction ls generalizing i with
  | nil => simp at h; omega
  | cons l ls ih =>
    by_cases hl : i < l
    · exact ⟨0, by simp, by simpa using h0, by simpa using hl⟩
    · simp only [List.sum_cons] at h
      obtain ⟨b, hb, h1, h2⟩ := ih (i - l) (by omega) (by omega)
      refine ⟨b + 1, by simpa using hb, ?_, ?_⟩
      · simp only [List.take_succ_cons, List.sum_cons]; omega
      · simp only [List.take_succ_cons, List.sum_cons, List.getElem_cons_succ]; omega

theorem pyIdx_nat {α : Type} (l : List α) (n : Nat) (h : n < l.length) : pyIdx l (n : Int) = .ok l[n] := by
  unfold pyIdx
  rw [if_pos (by omega)]
  simp [List.getElem?_eq_getElem h]

theorem bisect_acc (ls : List Int) (hp : Positive ls) (b : Nat) (hb : b < ls.length) (r : Int)
    (h0 : 0 ≤ r) (hr : r < ls[b]) :
    bisectRight (accumulate 0 ls) ((ls.take b).sum + r) = b + 1 := by
  apply bisectRight_eq (accumulate_sorted 0 ls hp)
  · rw [accumulate_length]; omega
  · intro j h hj
    rw [accumulate_get]
    have := take_sum_mono ls hp (show j ≤ b by omega)
    omega
  · intro j h hj
    rw [accumulate_get]
    have := take_sum_mono ls hp hj
    rw [take_succ_sum ls hb] at this
    omega

/-- a mixed category whose blocks all have the given positive totals -/
theorem mixed_make {bs : List (List Int)} (h : ∀ t ∈ bs, t ≠ [] ∧ Positive t) :
    MixedCat.make (bs.map SubCat.mk) = .ok ⟨bs.map SubCat.mk, accumulate 0 (bs.map prodI)⟩ := by
  have : (bs.map SubCat.mk).mapM SubCat.len = Except.ok (ε := PyErr) (bs.map prodI) := by
    induction bs with
    | nil => rfl
    | cons t bs ih =>
      obtain ⟨h1, h2⟩ := h t (by simp)
      have hl : SubCat.len ⟨t⟩ = .ok (prodI t) := by unfold SubCat.len; rw [max?_pos h1 h2]
      have ih' := ih (fun x hx => h x (by simp [hx]))
      simp only [List.map_cons, List.mapM_cons, hl, ih']
      rfl
  unfold MixedCat.make
  rw [this]

theorem mixed_category {bs : List (List Int)} (h : ∀ t ∈ bs, t ≠ [] ∧ Positive t) (b : Nat)
    (hb : b < bs.length) (r : Int) (h0 : 0 ≤ r) (hr : r < prodI bs[b]) :
    MixedCat.category ⟨bs.map SubCat.mk, accumulate 0 (bs.map prodI)⟩ (((bs.map prodI).take b).sum + r)
      = .ok ((b : Int) :: catBE bs[b] r) := by
  have hp : Positive (bs.map prodI) := by
    intro x hx
    obtain ⟨t, ht, rfl⟩ := List.mem_map.1 hx
    exact prodI_pos (h t ht).2
  have hbl : b < (bs.map prodI).length := by simpa using hb
  unfold MixedCat.category
  simp only
  rw [bisect_acc _ hp b hbl r h0 (by simpa using hr)]
  have e1 : ((b + 1 : Nat) : Int) - 1 = (b : Int) := by omega
  rw [e1, pyIdx_nat _ b (by simpa using hb), pyIdx_nat _ (b + 1) (by rw [accumulate_length]; omega)]
  obtain ⟨t1, t2⟩ := h bs[b] (List.getElem_mem hb)
  have hP := prodI_pos t2
  simp only [List.getElem_map, bind, Except.bind]
  rw [accumulate_get, take_succ_sum _ hbl, sub_category t1 t2, if_pos (by simp only [List.getElem_map]; omega)]
  simp only [List.getElem_map]
  have e2 : (List.take b (bs.map prodI)).sum + r - (0 + ((List.take b (bs.map prodI)).sum + prodI bs[b]))
      = r + prodI bs[b] * (-1) := by omega
  rw [e2, catBE_shift t2]
  rfl

theorem radix_head (t t' : Int) (ts ds : List Int) : radix (t :: ts) ds = radix (t' :: ts) ds := by
  cases ds <;> rfl

theorem mixed_index {bs : List (List Int)} {tail : List Int} (h : ∀ t ∈ bs, ∃ x, t = x :: tail) (b : Nat)
    (hb : b < bs.length) (ds : List Int) (hd : ds.length = tail.length + 1) :
    MixedCat.index ⟨bs.map SubCat.mk, accumulate 0 (bs.map prodI)⟩ ((b : Int) :: ds)
      = .ok (((bs.map prodI).take b).sum + radix bs[b] ds) := by
  unfold MixedCat.index
  simp only [bind, Except.bind]
  rw [pyIdx_nat _ b (by rw [accumulate_length]; simp; omega)]
  have hprev : ∃ x, pyIdx (bs.map SubCat.mk) ((b : Int) - 1) = .ok ⟨x :: tail⟩ := by
    cases b with
    | zero =>
      have hl : bs.length - 1 < bs.length := by omega
      obtain ⟨x, hx⟩ := h bs[bs.length - 1] (List.getElem_mem hl)
      refine ⟨x, ?_⟩
      unfold pyIdx
      rw [if_neg (by omega), if_pos (by simp; omega)]
      have e : (((0 : Nat) : Int) - 1 + ((bs.map SubCat.mk).length : Int)).toNat = bs.length - 1 := by
        simp; omega
      rw [e, List.getElem?_eq_getElem (by simpa using hl)]
      simp [hx]
    | succ b =>
      obtain ⟨x, hx⟩ := h bs[b] (List.getElem_mem (by omega))
      refine ⟨x, ?_⟩
      have e : ((b + 1 : Nat) : Int) - 1 = (b : Int) := by omega
      rw [e, pyIdx_nat _ b (by simp; omega)]
      simp [hx]
  obtain ⟨x, hx⟩ := hprev
  obtain ⟨y, hy⟩ := h bs[b] (List.getElem_mem hb)
  rw [hx]
  simp only
  rw [sub_index hd, accumulate_get, hy, radix_head x y]
  simp [pure, Except.pure]

end Verif.Proofs
