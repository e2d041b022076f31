import Verif.Proofs.Category
import Verif.Spec.Hand

/-! Properties C03 (category numbering) and C04 (tenhou tile numbers). -/
namespace Verif.Props
open Verif.Py Verif.Model Verif.Spec Verif.Proofs

/-! ### C03 -/

/-- **C03.** A `SubCategory` with positive sizes `ts` (any number of them): the constructor accepts
    them, `index` gives a tuple its position in mixed-radix order, below the product, and `category`
    inverts it; every number below the product arises; larger numbers are rejected. -/
theorem C03_sub_category (ts : List Int) (hne : ts ≠ []) (hp : Positive ts) :
    ∃ c, SubCat.make ts = .ok c ∧ SubCat.len c = .ok (prodI ts) ∧
      (∀ ds, Digits ts ds →
        SubCat.index c ds = .ok (radix ts ds) ∧ 0 ≤ radix ts ds ∧ radix ts ds < prodI ts ∧
        SubCat.category c (radix ts ds) = .ok ds) ∧
      (∀ i, 0 ≤ i → i < prodI ts → ∃ ds, SubCat.category c i = .ok ds ∧ Digits ts ds ∧
        SubCat.index c ds = .ok i) ∧
      (∀ i, prodI ts ≤ i → SubCat.category c i = .error .assertionError) ∧
      (∀ ds, ds.length ≠ ts.length → SubCat.index c ds = .error .assertionError) := by
  have hm : SubCat.make ts = .ok ⟨ts⟩ := by
    cases ts with
    | nil => exact absurd rfl hne
    | cons t ts =>
      show (if _ then _ else _) = _
      rw [if_pos]
      simp only [Bool.and_eq_true, List.all_eq_true, decide_eq_true_eq, Bool.or_eq_true]
      exact ⟨fun x hx => hp x (by simp [hx]), Or.inr (hp t (by simp))⟩
  have hidx : ∀ ds, ds.length = ts.length → SubCat.index ⟨ts⟩ ds = .ok (radix ts ds) := by
    intro ds hd
    cases ts with
    | nil => exact absurd rfl hne
    | cons t ts => exact sub_index (by simpa using hd)
  refine ⟨⟨ts⟩, hm, ?_, ?_, ?_, ?_, ?_⟩
  · unfold SubCat.len; rw [max?_pos hne hp]
  · intro ds hd
    obtain ⟨a, b⟩ := radix_range hp hd
    refine ⟨hidx ds hd.1, a, b, ?_⟩
    rw [sub_category hne hp, if_pos b, catBE_radix hp hd]
  · intro i h0 hi
    refine ⟨catBE ts i, ?_, catBE_digits hp i, ?_⟩
    · rw [sub_category hne hp, if_pos hi]
    · rw [hidx _ (catBE_digits hp i).1, radix_catBE hp, Int.emod_eq_of_lt h0 hi]
  · intro i hi
    rw [sub_category hne hp, if_neg (by omega)]
  · intro ds hd
    unfold SubCat.index
    rw [if_neg hd]

/-- **C03.** A `MixedCategory` of such blocks whose sizes agree after the first: numbers run through the
    blocks one after another, `index` and `category` are mutually inverse, and numbers beyond the total
    are rejected. -/
theorem C03_mixed_category (bs : List (List Int)) (tail : List Int)
    (h : ∀ t ∈ bs, ∃ x, t = x :: tail ∧ Positive t) :
    ∃ c, MixedCat.make (bs.map SubCat.mk) = .ok c ∧
      (∀ (b : Nat) (hb : b < bs.length) (ds : List Int), Digits bs[b] ds →
        ∃ i, i = ((bs.take b).map prodI).sum + radix bs[b] ds ∧ 0 ≤ i ∧ i < (bs.map prodI).sum ∧
          MixedCat.index c ((b : Int) :: ds) = .ok i ∧ MixedCat.category c i = .ok ((b : Int) :: ds)) ∧
      (∀ i, 0 ≤ i → i < (bs.map prodI).sum →
        ∃ (b : Nat) (hb : b < bs.length) (ds : List Int), Digits bs[b] ds ∧
          MixedCat.category c i = .ok ((b : Int) :: ds) ∧ MixedCat.index c ((b : Int) :: ds) = .ok i) ∧
      (∀ i, (bs.map prodI).sum ≤ i → MixedCat.category c i = .error .indexError) := by
  have h1 : ∀ t ∈ bs, t ≠ [] ∧ Positive t := by
    intro t ht
    obtain ⟨x, rfl, hp⟩ := h t ht
    exact ⟨by simp, hp⟩
  have h2 : ∀ t ∈ bs, ∃ x, t = x :: tail := fun t ht => by
    obtain ⟨x, hx, _⟩ := h t ht; exact ⟨x, hx⟩
  have hlen : ∀ (b : Nat) (hb : b < bs.length) ds, Digits bs[b] ds → ds.length = tail.length + 1 := by
    intro b hb ds hd
    obtain ⟨x, hx⟩ := h2 bs[b] (List.getElem_mem hb)
    have := hd.1
    rw [hx] at this
    simpa using this
  have hpos : Positive (bs.map prodI) := by
    intro x hx
    obtain ⟨t, ht, rfl⟩ := List.mem_map.1 hx
    exact prodI_pos (h1 t ht).2
  refine ⟨_, mixed_make h1, ?_, ?_, ?_⟩
  · intro b hb ds hd
    have hp := (h1 bs[b] (List.getElem_mem hb)).2
    obtain ⟨a, c⟩ := radix_range hp hd
    have e : ((bs.take b).map prodI).sum = ((bs.map prodI).take b).sum := by rw [List.map_take]
    have m0 := take_sum_mono (bs.map prodI) hpos (Nat.zero_le b)
    have m1 := take_sum_mono (bs.map prodI) hpos (show b + 1 ≤ (bs.map prodI).length by simp; omega)
    rw [take_succ_sum _ (by simpa using hb), List.take_length] at m1
    simp only [List.take_zero, List.sum_nil, List.getElem_map] at m0 m1
    refine ⟨_, rfl, by omega, by omega, ?_, ?_⟩
    · rw [mixed_index h2 b hb ds (hlen b hb ds hd), e]
    · rw [e, mixed_category h1 b hb _ a c, catBE_radix hp hd]
  · intro i h0 hi
    obtain ⟨b, hb, x, y⟩ := exists_block (bs.map prodI) i h0 hi
    have hb' : b < bs.length := by simpa using hb
    have hp := (h1 bs[b] (List.getElem_mem hb')).2
    simp only [List.getElem_map] at y
    refine ⟨b, hb', catBE bs[b] (i - ((bs.map prodI).take b).sum), catBE_digits hp _, ?_, ?_⟩
    · rw [← mixed_category h1 b hb' _ (by omega) (by omega)]
      congr 1; omega
    · rw [mixed_index h2 b hb' _ (hlen b hb' _ (catBE_digits hp _)), radix_catBE hp,
        Int.emod_eq_of_lt (by omega) (by omega)]
      congr 1; omega
  · intro i hi
    have hb : bisectRight (accumulate 0 (bs.map prodI)) i = bs.length + 1 := by
      apply bisectRight_eq (accumulate_sorted 0 _ hpos)
      · rw [accumulate_length]; simp
      · intro j hj _
        rw [accumulate_get]
        have := take_sum_mono (bs.map prodI) hpos
          (show j ≤ (bs.map prodI).length by rw [accumulate_length] at hj; omega)
        rw [List.take_length] at this
        omega
      · intro j hj hle
        rw [accumulate_length] at hj
        simp at hj
        omega
    unfold MixedCat.category
    simp only [hb, bind, Except.bind]
    have : pyIdx (bs.map SubCat.mk) (((bs.length + 1 : Nat) : Int) - 1) = .error .indexError := by
      have e : ((bs.length + 1 : Nat) : Int) - 1 = (bs.length : Int) := by omega
      rw [e]
      unfold pyIdx
      rw [if_pos (by omega)]
      simp
    rw [this]

/-- **C03**, why the sizes must agree: with blocks of shapes 2×2 and 3×3, tuple (1, 1, 0) is number 7 but
    `index` answers 6. -/
theorem C03_mixed_needs_agreement :
    ∃ c, MixedCat.make [⟨[2, 2]⟩, ⟨[3, 3]⟩] = .ok c ∧
      MixedCat.category c 7 = .ok [1, 1, 0] ∧ MixedCat.index c [1, 1, 0] = .ok 6 := by
  exact ⟨_, rfl, by decide +kernel, by decide +kernel⟩

/-- instances: the tile category, and a three-dimensional one. -/
example : (∀ t ∈ ([[9, 4], [9, 4], [9, 4], [7, 4]] : List (List Int)), ∃ x, t = x :: [4] ∧ Positive t) ∧
    Positive [3, 7, 3] ∧ Digits [3, 7, 3] [2, 6, 1] ∧ radix [3, 7, 3] [2, 6, 1] = 61 := by
  refine ⟨by simp [Positive], by simp [Positive], ⟨rfl, ?_⟩, by decide⟩
  intro j h h'
  match j, h, h' with
  | 0, _, _ => simp
  | 1, _, _ => simp
  | 2, _, _ => simp
  | j + 3, h, _ => simp at h; omega

/-- the constant `TENHOU_TILE_CATEGORY` of the model is what the constructor builds. -/
theorem C03_tenhou_category :
    MixedCat.make ([[9, 4], [9, 4], [9, 4], [7, 4]].map SubCat.mk) = .ok TENHOU_TILE_CATEGORY := by
  decide +kernel

/-! ### C04 -/

/-- The 34 kinds in tenhou order, four consecutive numbers each. -/
def kindOfNumber (i : Nat) : Option Kind := allKinds[i / 4]?

/-- red fives -/
def redNumbers : List Nat := [16, 52, 88]

/-- table check used below: all 136 numbers. -/
theorem tenhou_table : ∀ i : Fin 136, ∃ t, tileFromTenhou (i.val : Int) = .ok t ∧ RealTile t ∧
    kindOfNumber i.val = some t.view ∧ t.aka = decide (i.val ∈ redNumbers) ∧
    (t.aka = false → tileToTenhouRange t = .ok (4 * (i.val / 4 : Nat), 4 * (i.val / 4 : Nat) + 4)) := by
  have : ∀ i : Fin 136, (match tileFromTenhou (i.val : Int) with
      | .ok t => decide (RealTile t ∧ kindOfNumber i.val = some t.view ∧ t.aka = decide (i.val ∈ redNumbers) ∧
          (t.aka = false → tileToTenhouRange t = .ok (4 * (i.val / 4 : Nat), 4 * (i.val / 4 : Nat) + 4)))
      | .error _ => false) = true := by decide +kernel
  intro i
  have h := this i
  split at h
  · rename_i t ht
    exact ⟨t, ht, of_decide_eq_true h⟩
  · simp at h

/-- **C04.** Every number 0..135 is a real tile: its kind is the `i / 4`-th of the 34 kinds, it is red
    exactly for 16, 52 and 88, and for a tile that is not red the range of its numbers is the block of four
    containing `i`. -/
theorem C04_from_tenhou (i : Nat) (hi : i < 136) :
    ∃ t, tileFromTenhou i = .ok t ∧ RealTile t ∧ allKinds[i / 4]? = some t.view ∧
      (t.aka = true ↔ i = 16 ∨ i = 52 ∨ i = 88) ∧
      (t.aka = false → ∃ a b : Nat, tileToTenhouRange t = .ok (a, b) ∧ a ≤ i ∧ i < b ∧ b = a + 4 ∧ 4 ∣ a) := by
  obtain ⟨t, h1, h2, h3, h4, h5⟩ := tenhou_table ⟨i, hi⟩
  refine ⟨t, h1, h2, h3, by rw [h4]; simp [redNumbers], fun h => ?_⟩
  refine ⟨4 * (i / 4), 4 * (i / 4) + 4, ?_, by omega, by omega, rfl, by omega⟩
  rw [h5 h]
  simp

/-- **C04.** Two numbers give `==` tiles exactly when they lie in the same block of four. -/
theorem C04_blocks (i j : Nat) (hi : i < 136) (hj : j < 136) (s t : Tile)
    (hs : tileFromTenhou i = .ok s) (ht : tileFromTenhou j = .ok t) :
    Tile.eq s t = true ↔ i / 4 = j / 4 := by
  obtain ⟨s', a1, _, a3, _⟩ := C04_from_tenhou i hi
  obtain ⟨t', b1, _, b3, _⟩ := C04_from_tenhou j hj
  rw [hs] at a1; rw [ht] at b1
  cases a1; cases b1
  have nd : allKinds.Nodup := by decide
  unfold Tile.eq
  rw [decide_eq_true_eq]
  have hi' : i / 4 < allKinds.length := by show i / 4 < 34; omega
  constructor
  · intro h
    rw [← h, ← a3] at b3
    exact (List.getElem?_inj hi' nd).1 b3.symm
  · intro h
    rw [← h, a3] at b3
    exact Option.some.inj b3

/-- **C04.** From a plain tile to its numbers and back: the range has exactly the four numbers that give
    an equal tile. -/
theorem C04_range_inverse (t : Tile) (ht : RealTile t) (hp : t.aka = false) :
    ∃ a : Nat, a + 4 ≤ 136 ∧ tileToTenhouRange t = .ok (a, a + 4) ∧
      ∀ i : Nat, i < 136 → ((a ≤ i ∧ i < a + 4) ↔ ∃ s, tileFromTenhou i = .ok s ∧ Tile.eq s t = true) := by
  have hk : t.view ∈ allKinds := by
    obtain ⟨c, n, a⟩ := t
    simp only at hp; subst hp
    have hv := ht.1
    simp only [Tile.view, ValidKind] at hv
    simp only [Tile.view, allKinds]
    have : n = 1 ∨ n = 2 ∨ n = 3 ∨ n = 4 ∨ n = 5 ∨ n = 6 ∨ n = 7 ∨ n = 8 ∨ n = 9 := by
      simp only [Bool.false_eq_true, if_false] at hv
      omega
    rcases this with rfl | rfl | rfl | rfl | rfl | rfl | rfl | rfl | rfl <;> cases c <;> simp_all
  obtain ⟨k, hk34, hk⟩ := List.getElem_of_mem hk
  have hk34' : k < 34 := hk34
  -- number 4k+1 is never red
  obtain ⟨s, a1, a2, a3, a4, a5⟩ := C04_from_tenhou (4 * k + 1) (by omega)
  have e : (4 * k + 1) / 4 = k := by omega
  rw [e, List.getElem?_eq_getElem hk34, hk] at a3
  have hs : s.aka = false := by
    by_cases h : s.aka = true
    · have := a4.1 h; omega
    · simpa using h
  have hst : s = t := by
    have := Option.some.inj a3
    obtain ⟨c, n, x⟩ := s
    obtain ⟨c', n', x'⟩ := t
    simp only at hs hp
    subst hs; subst hp
    simp only [Tile.view, Bool.false_eq_true, if_false, Prod.mk.injEq] at this
    simp [this.1, this.2]
  subst hst
  obtain ⟨a, b, b1, b2, b3, rfl, b5⟩ := a5 hs
  refine ⟨a, by omega, b1, fun i hi => ?_⟩
  constructor
  · rintro ⟨h1, h2⟩
    obtain ⟨s', c1, _⟩ := C04_from_tenhou i hi
    exact ⟨s', c1, (C04_blocks i (4 * k + 1) hi (by omega) s' s c1 a1).2 (by omega)⟩
  · rintro ⟨s', c1, c2⟩
    have := (C04_blocks i (4 * k + 1) hi (by omega) s' s c1 a1).1 c2
    omega

theorem tenhou_acc_sorted : (TENHOU_TILE_CATEGORY.acc).Pairwise (· ≤ ·) := by decide

theorem tenhou_consts : TENHOU_TILE_CATEGORY.index [suitIndex .m, 4, 0] = .ok 16 ∧
    TENHOU_TILE_CATEGORY.index [suitIndex .p, 4, 0] = .ok 52 ∧
    TENHOU_TILE_CATEGORY.index [suitIndex .s, 4, 0] = .ok 88 := by decide +kernel

/-- **C04.** Numbers 136 and above raise `IndexError`. -/
theorem C04_rejects_large (i : Int) (hi : 136 ≤ i) : tileFromTenhou i = .error .indexError := by
  obtain ⟨h1, h2, h3⟩ := tenhou_consts
  obtain ⟨c, hc, _, _, hr⟩ := C03_mixed_category [[9, 4], [9, 4], [9, 4], [7, 4]] [4] (by simp [Positive])
  rw [C03_tenhou_category] at hc
  cases hc
  have := hr i (by simp [prodI]; omega)
  unfold tileFromTenhou
  simp only [h1, h2, h3, bind, Except.bind]
  rw [if_neg (by omega), if_neg (by omega), if_neg (by omega), this]

/-- **C04.** Negative numbers are not rejected: they all come back as honour tiles. -/
theorem C04_negative_numbers (i : Int) (hi : i < 0) :
    ∃ n, tileFromTenhou i = .ok ⟨.z, n, false⟩ ∧ 1 ≤ n ∧ n ≤ 7 := by
  obtain ⟨h1, h2, h3⟩ := tenhou_consts
  have hb : bisectRight TENHOU_TILE_CATEGORY.acc i = 0 := by
    apply bisectRight_eq tenhou_acc_sorted
    · omega
    · intro j h hj; omega
    · intro j h _
      have : ∀ x ∈ TENHOU_TILE_CATEGORY.acc, (0 : Int) ≤ x := by decide
      have := this _ (List.getElem_mem h)
      omega
  have hcat : TENHOU_TILE_CATEGORY.category i = .ok [-1, i / 4 % 7, i % 4] := by
    unfold MixedCat.category
    simp only [hb, bind, Except.bind]
    have e1 : pyIdx TENHOU_TILE_CATEGORY.blocks (((0 : Nat) : Int) - 1) = .ok ⟨[7, 4]⟩ := by decide +kernel
    have e2 : pyIdx TENHOU_TILE_CATEGORY.acc ((0 : Nat) : Int) = .ok 0 := by decide +kernel
    rw [e1, e2]
    simp only
    rw [sub_category (by simp) (by simp [Positive]), if_pos (by simp [prodI]; omega)]
    simp [catBE, prodI, pure, Except.pure]
  refine ⟨i / 4 % 7 + 1, ?_, by omega, by omega⟩
  unfold tileFromTenhou
  simp only [h1, h2, h3, bind, Except.bind]
  rw [if_neg (by omega), if_neg (by omega), if_neg (by omega), hcat]
  have : pyIdx SUIT_ORDER (-1) = .ok Suit.z := by decide +kernel
  simp only [this]
  rfl

/-- **C04.** A red five is not mapped to its own numbers (`tile_to_tenhou_range` uses number 0 - 1). -/
theorem C04_red_range_wrong :
    tileToTenhouRange ⟨.m, 0, true⟩ = .ok (-4, 0) ∧ tileToTenhouRange ⟨.p, 0, true⟩ = .ok (32, 36) ∧
    tileToTenhouRange ⟨.s, 0, true⟩ = .ok (68, 72) := by decide +kernel

end Verif.Props
