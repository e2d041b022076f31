import Verif.Model.Meld
import Verif.Spec.Meld
import Verif.Proofs.Bits
import Verif.Proofs.Category
import Verif.Props.Category

namespace Verif.Proofs
open Verif.Py Verif.Model Verif.Spec

theorem tenhou_index (c n h : Int) (h0 : 0 ≤ c) (h1 : c < 4) :
    TENHOU_TILE_CATEGORY.index [c, n, h] = .ok (36 * c + 4 * n + h) := by
  have : c = 0 ∨ c = 1 ∨ c = 2 ∨ c = 3 := by omega
  rcases this with rfl | rfl | rfl | rfl <;>
  · simp [MixedCat.index, TENHOU_TILE_CATEGORY, pyIdx, bind, Except.bind, SubCat.index, indexLoop, pure, Except.pure]
    omega

theorem unpack_flush (v : Int) (h0 : 0 ≤ v) (h1 : v ≤ 65535) :
    unpackWith flushDesc v = .ok [("type6".toList, v / 1024 % 64), ("padding__".toList, v / 512 % 2),
      ("hai2".toList, v / 128 % 4), ("hai1".toList, v / 32 % 4), ("hai0".toList, v / 8 % 4),
      ("syuntsu".toList, v / 4 % 2), ("kui".toList, v % 4)] := by
  rw [unpackWith_eq _ (by decide) _ h0 h1]
  simp [flushDesc, lay]

theorem unpack_triplet (v : Int) (h0 : 0 ≤ v) (h1 : v ≤ 65535) :
    unpackWith tripletDesc v = .ok [("type7".toList, v / 512 % 128), ("padding__".toList, v / 128 % 4),
      ("hai_unused".toList, v / 32 % 4), ("chakan".toList, v / 16 % 2), ("koutsu".toList, v / 8 % 2),
      ("syuntsu".toList, v / 4 % 2), ("kui".toList, v % 4)] := by
  rw [unpackWith_eq _ (by decide) _ h0 h1]
  simp [tripletDesc, lay]

theorem unpack_added (v : Int) (h0 : 0 ≤ v) (h1 : v ≤ 65535) :
    unpackWith addedKanDesc v = .ok [("type7".toList, v / 512 % 128), ("padding__".toList, v / 128 % 4),
      ("hai_added".toList, v / 32 % 4), ("chakan".toList, v / 16 % 2), ("koutsu".toList, v / 8 % 2),
      ("syuntsu".toList, v / 4 % 2), ("kui".toList, v % 4)] := by
  rw [unpackWith_eq _ (by decide) _ h0 h1]
  simp [addedKanDesc, lay]

theorem unpack_kan (v : Int) (h0 : 0 ≤ v) (h1 : v ≤ 65535) :
    unpackWith kanDesc v = .ok [("type8".toList, v / 256 % 256), ("padding__".toList, v / 64 % 4),
      ("nuki".toList, v / 32 % 2), ("chakan".toList, v / 16 % 2), ("koutsu".toList, v / 8 % 2),
      ("syuntsu".toList, v / 4 % 2), ("kui".toList, v % 4)] := by
  rw [unpackWith_eq _ (by decide) _ h0 h1]
  simp [kanDesc, lay]

theorem fromWho_eq (who kui : Int) (h0 : 0 ≤ kui) (h1 : kui < 4) : fromWhoOf who kui = .ok ((who + kui) % 4) := by
  have : kui = 0 ∨ kui = 1 ∨ kui = 2 ∨ kui = 3 := by omega
  rcases this with rfl | rfl | rfl | rfl <;> rfl

theorem initFromBasic3 (a b c w : Int) (hab : a < b) (hbc : b < c) (h0 : 0 ≤ w) (h1 : w < 3) :
    initFromBasic [a, b, c] w = .ok ([[a, b, c].getD w.toNat 0], [a, b, c].eraseIdx w.toNat) := by
  have e1 : b ≠ a := by omega
  have e2 : c ≠ a := by omega
  have e3 : c ≠ b := by omega
  have hd : [a, b, c].eraseDups = [a, b, c] := by
    simp [List.eraseDups_cons, e1, e2, e3]
  have : w = 0 ∨ w = 1 ∨ w = 2 := by omega
  rcases this with rfl | rfl | rfl <;>
  · simp [initFromBasic, setDiff1, hd, pyIdx, bind, Except.bind, pure, Except.pure, e1, e2, e3, e1.symm, e2.symm, e3.symm]

theorem eraseDups4 (a b c d : Int) (hab : a < b) (hbc : b < c) (hcd : c < d) :
    [a, b, c, d].eraseDups = [a, b, c, d] := by
  have e1 : b ≠ a := by omega
  have e2 : c ≠ a := by omega
  have e3 : c ≠ b := by omega
  have e4 : d ≠ a := by omega
  have e5 : d ≠ b := by omega
  have e6 : d ≠ c := by omega
  simp [List.eraseDups_cons, e1, e2, e3, e4, e5, e6]

theorem initFromBasic4 (a b c d w : Int) (hab : a < b) (hbc : b < c) (hcd : c < d) (h0 : 0 ≤ w) (h1 : w < 4) :
    initFromBasic [a, b, c, d] w = .ok ([[a, b, c, d].getD w.toNat 0], [a, b, c, d].eraseIdx w.toNat) := by
  have e1 : b ≠ a := by omega
  have e2 : c ≠ a := by omega
  have e3 : c ≠ b := by omega
  have e4 : d ≠ a := by omega
  have e5 : d ≠ b := by omega
  have e6 : d ≠ c := by omega
  have hd : [a, b, c, d].eraseDups = [a, b, c, d] := by
    simp [List.eraseDups_cons, e1, e2, e3, e4, e5, e6]
  have : w = 0 ∨ w = 1 ∨ w = 2 ∨ w = 3 := by omega
  rcases this with rfl | rfl | rfl | rfl <;>
  · simp [initFromBasic, setDiff1, hd, pyIdx, bind, Except.bind, pure, Except.pure, e1, e2, e3, e4, e5, e6,
      e1.symm, e2.symm, e3.symm, e4.symm, e5.symm, e6.symm]

theorem field_cons_eq (n : Str) (x : Int) (d : List (Str × Int)) : field ((n, x) :: d) n = .ok x := by
  simp [field]

theorem field_cons_ne (n m : Str) (x : Int) (d : List (Str × Int)) (h : m ≠ n) :
    field ((n, x) :: d) m = field d m := by
  have : (m == n) = false := by simpa using h
  simp [field, List.lookup_cons, this]

/-- evaluate attribute access on a literal tuple -/
macro "fields" : tactic =>
  `(tactic| simp (disch := decide) only [field_cons_eq, field_cons_ne, bind, Except.bind, pure, Except.pure, Bind.bind])

theorem decodeFlush_eq (who v : Int) (h0 : 0 ≤ v) (h1 : v ≤ 65535) :
    decodeFlush who v =
      if v / 1024 < 63 then
        let tiles := chiTiles (v / 1024 / 21) (v / 1024 / 3 % 7) (v / 8 % 4) (v / 32 % 4) (v / 128 % 4)
        .ok ⟨.flush, tiles.eraseIdx (v / 1024 % 3).toNat, [tiles.getD (v / 1024 % 3).toNat 0], (who + v % 4) % 4⟩
      else .error .assertionError := by
  have t6 : v / 1024 % 64 = v / 1024 := by omega
  unfold decodeFlush
  rw [unpack_flush v h0 h1]
  fields
  rw [sub_category (by simp) (by simp [Positive]), t6]
  by_cases h : v / 1024 < 63
  · rw [if_pos (by simp [prodI]; omega), if_pos h]
    have e1 : v / 1024 / 21 % 3 = v / 1024 / 21 := by omega
    simp only [catBE, prodI, unpack3, Int.mul_one, Int.ediv_one, Int.reduceMul, e1]
    rw [tenhou_index _ _ _ (by omega) (by omega), tenhou_index _ _ _ (by omega) (by omega),
      tenhou_index _ _ _ (by omega) (by omega)]
    simp only
    rw [initFromBasic3 _ _ _ _ (by omega) (by omega) (by omega) (by omega), fromWho_eq _ _ (by omega) (by omega)]
    have : chiTiles (v / 1024 / 21) (v / 1024 / 3 % 7) (v / 8 % 4) (v / 32 % 4) (v / 128 % 4) =
      [36 * (v / 1024 / 21) + 4 * (v / 1024 / 3 % 7 + 0) + v / 8 % 4,
       36 * (v / 1024 / 21) + 4 * (v / 1024 / 3 % 7 + 1) + v / 32 % 4,
       36 * (v / 1024 / 21) + 4 * (v / 1024 / 3 % 7 + 2) + v / 128 % 4] := by
      simp only [chiTiles, copyOf, List.cons.injEq, and_true]
      refine ⟨?_, ?_, ?_⟩ <;> omega
    rw [this]
  · rw [if_neg (by simp [prodI]; omega), if_neg h]

theorem decodeTriplet_eq (who v : Int) (h0 : 0 ≤ v) (h1 : v ≤ 65535) :
    decodeTriplet who v =
      if v / 512 < 102 then
        let tiles := ponTiles (v / 512 / 3) (v / 32 % 4)
        .ok ⟨.triplet, tiles.eraseIdx (v / 512 % 3).toNat, [tiles.getD (v / 512 % 3).toNat 0], (who + v % 4) % 4⟩
      else .error .assertionError := by
  have t7 : v / 512 % 128 = v / 512 := by omega
  unfold decodeTriplet
  rw [unpack_triplet v h0 h1]
  fields
  rw [sub_category (by simp) (by simp [Positive]), t7]
  by_cases h : v / 512 < 102
  · rw [if_pos (by simp [prodI]; omega), if_pos h]
    have e1 : v / 512 / 3 % 34 = v / 512 / 3 := by omega
    simp only [catBE, prodI, unpack2, Int.mul_one, Int.ediv_one, e1]
    rw [sub_category (by simp) (by simp [Positive]), if_pos (by simp [prodI]; omega)]
    simp only [catBE, prodI, unpack2, Int.mul_one, Int.ediv_one]
    have e2 : v / 512 / 3 / 9 % 4 = v / 512 / 3 / 9 := by omega
    rw [e2]
    have hm : ∀ h : Int, TENHOU_TILE_CATEGORY.index [v / 512 / 3 / 9, v / 512 / 3 % 9, h] =
        .ok (copyOf (v / 512 / 3) h) := by
      intro h
      rw [tenhou_index _ _ _ (by omega) (by omega)]
      simp only [copyOf]; congr 1; omega
    have hu : v / 32 % 4 = 0 ∨ v / 32 % 4 = 1 ∨ v / 32 % 4 = 2 ∨ v / 32 % 4 = 3 := by omega
    rcases hu with hu | hu | hu | hu <;>
    · rw [hu]
      simp only [haisWithout, ponTiles]
      simp only [ne_eq, List.filter, decide_not, decide_true, Bool.not_true, Int.reduceEq, decide_false,
        Bool.not_false, List.mapM_cons, List.mapM_nil, bind, Except.bind, pure, Except.pure, hm, List.map]
      rw [initFromBasic3 _ _ _ _ (by simp only [copyOf]; omega) (by simp only [copyOf]; omega) (by omega) (by omega),
        fromWho_eq _ _ (by omega) (by omega)]
  · rw [if_neg (by simp [prodI]; omega), if_neg h]

theorem decodeAddedKan_eq (who v : Int) (h0 : 0 ≤ v) (h1 : v ≤ 65535) :
    decodeAddedKan who v =
      if v / 512 < 102 then .ok ⟨.addedKan, [copyOf (v / 512 / 3) (v / 32 % 4)], [], (who + v % 4) % 4⟩
      else .error .assertionError := by
  have t7 : v / 512 % 128 = v / 512 := by omega
  unfold decodeAddedKan
  rw [unpack_added v h0 h1]
  fields
  rw [sub_category (by simp) (by simp [Positive]), t7]
  by_cases h : v / 512 < 102
  · rw [if_pos (by simp [prodI]; omega), if_pos h]
    have e1 : v / 512 / 3 % 34 = v / 512 / 3 := by omega
    simp only [catBE, prodI, unpack2, Int.mul_one, Int.ediv_one, e1]
    rw [sub_category (by simp) (by simp [Positive]), if_pos (by simp [prodI]; omega)]
    simp only [catBE, prodI, unpack2, Int.mul_one, Int.ediv_one]
    rw [tenhou_index _ _ _ (by omega) (by omega), fromWho_eq _ _ (by omega) (by omega)]
    simp only [copyOf]
    congr 3
    congr 1
    omega
  · rw [if_neg (by simp [prodI]; omega), if_neg h]

theorem tenhou_category (i : Int) (h0 : 0 ≤ i) :
    TENHOU_TILE_CATEGORY.category i =
      if i < 136 then .ok [i / 36, i % 36 / 4, i % 4] else .error .indexError := by
  by_cases h : i < 136
  · rw [if_pos h]
    have : ∀ j : Fin 136, TENHOU_TILE_CATEGORY.category (j.val : Int) =
      .ok [(j.val : Int) / 36, (j.val : Int) % 36 / 4, (j.val : Int) % 4] := by decide +kernel
    have := this ⟨i.toNat, by omega⟩
    simpa [Int.toNat_of_nonneg h0] using this
  · rw [if_neg h]
    obtain ⟨c, hc, _, _, hr⟩ := Verif.Props.C03_mixed_category [[9, 4], [9, 4], [9, 4], [7, 4]] [4] (by simp [Positive])
    rw [Verif.Props.C03_tenhou_category] at hc
    cases hc
    exact hr i (by simp [prodI]; omega)

theorem decodeKan_eq (who v : Int) (h0 : 0 ≤ v) (h1 : v ≤ 65535) :
    decodeKan who v =
      if v / 256 < 136 then
        let tiles := [0, 1, 2, 3].map (copyOf (v / 256 / 4))
        if v % 4 = 0 then .ok ⟨.kan, tiles, [], who % 4⟩
        else .ok ⟨.kan, tiles.eraseIdx (v / 256 % 4).toNat, [copyOf (v / 256 / 4) (v / 256 % 4)], (who + v % 4) % 4⟩
      else .error .indexError := by
  have t8 : v / 256 % 256 = v / 256 := by omega
  unfold decodeKan
  rw [unpack_kan v h0 h1]
  fields
  rw [t8, tenhou_category _ (by omega)]
  by_cases h : v / 256 < 136
  · rw [if_pos h, if_pos h]
    simp only [unpack3]
    have hm : ∀ h : Int, TENHOU_TILE_CATEGORY.index [v / 256 / 36, v / 256 % 36 / 4, h] =
        .ok (copyOf (v / 256 / 4) h) := by
      intro h
      rw [tenhou_index _ _ _ (by omega) (by omega)]
      simp only [copyOf]; congr 1; omega
    simp only [List.mapM_cons, List.mapM_nil, bind, Except.bind, pure, Except.pure, hm]
    rw [fromWho_eq _ _ (by omega) (by omega)]
    simp only [List.map]
    split
    · rename_i hk
      have : (List.eraseDups [copyOf (v / 256 / 4) 0, copyOf (v / 256 / 4) 1, copyOf (v / 256 / 4) 2, copyOf (v / 256 / 4) 3])
        = [copyOf (v / 256 / 4) 0, copyOf (v / 256 / 4) 1, copyOf (v / 256 / 4) 2, copyOf (v / 256 / 4) 3] := by
        refine eraseDups4 _ _ _ _ ?_ ?_ ?_ <;> simp only [copyOf] <;> omega
      rw [this, hk, Int.add_zero]
    · rw [initFromBasic4 _ _ _ _ _ (by simp only [copyOf]; omega) (by simp only [copyOf]; omega)
        (by simp only [copyOf]; omega) (by omega) (by omega)]
      simp only
      have : v / 256 % 4 = 0 ∨ v / 256 % 4 = 1 ∨ v / 256 % 4 = 2 ∨ v / 256 % 4 = 3 := by omega
      rcases this with hu | hu | hu | hu <;> rw [hu] <;> rfl
  · rw [if_neg h, if_neg h]

theorem decodeKita_eq (who v : Int) (h0 : 0 ≤ v) (h1 : v ≤ 65535) :
    decodeKita who v = .ok ⟨.kita, [v / 256], [], (who + v % 4) % 4⟩ := by
  have t8 : v / 256 % 256 = v / 256 := by omega
  unfold decodeKita kitaDesc
  rw [unpack_kan v h0 h1]
  fields
  rw [fromWho_eq _ _ (by omega) (by omega), t8]

theorem meldOf_eq (who v : Int) (h0 : 0 ≤ v) (h1 : v ≤ 65535) :
    meldOf who v =
      if v / 4 % 2 = 1 then decodeFlush who v
      else if v / 8 % 2 = 1 then decodeTriplet who v
      else if v / 16 % 2 = 1 then decodeAddedKan who v
      else if v / 32 % 2 = 1 then decodeKita who v
      else decodeKan who v := by
  unfold meldOf kitaDesc
  rw [unpack_kan v h0 h1]
  fields
  have a1 : (v / 4 % 2 ≠ 0) ↔ v / 4 % 2 = 1 := by omega
  have a2 : (v / 8 % 2 ≠ 0) ↔ v / 8 % 2 = 1 := by omega
  have a3 : (v / 16 % 2 ≠ 0) ↔ v / 16 % 2 = 1 := by omega
  have a4 : (v / 32 % 2 ≠ 0) ↔ v / 32 % 2 = 1 := by omega
  simp only [a1, a2, a3, a4]

theorem meldType_eq (v : Int) (h0 : 0 ≤ v) (h1 : v ≤ 65535) :
    meldType v = .ok (
      if v / 4 % 2 = 1 then .flush
      else if v / 8 % 2 = 1 then .triplet
      else if v / 16 % 2 = 1 then .addKan
      else if v / 32 % 2 = 1 then .kita
      else .kan) := by
  unfold meldType kitaDesc
  rw [unpack_kan v h0 h1]
  fields
  have a1 : (v / 4 % 2 ≠ 0) ↔ v / 4 % 2 = 1 := by omega
  have a2 : (v / 8 % 2 ≠ 0) ↔ v / 8 % 2 = 1 := by omega
  have a3 : (v / 16 % 2 ≠ 0) ↔ v / 16 % 2 = 1 := by omega
  have a4 : (v / 32 % 2 ≠ 0) ↔ v / 32 % 2 = 1 := by omega
  simp only [a1, a2, a3, a4]
  split <;> (try rfl)
  split <;> (try rfl)
  split <;> (try rfl)
  split <;> rfl

end Verif.Proofs
