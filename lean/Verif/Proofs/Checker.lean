import Verif.Spec.Checker
import Verif.Proofs.Order
import Verif.Proofs.StableSort
import Verif.Proofs.PatternMatch
import Verif.Proofs.TranslateQuiet
import Verif.Props.Category
import Mathlib.Data.List.Nodup

/-! Lemmas on merging, counting and ordering reasoning items. -/
namespace Verif.Proofs
open Verif.Py Verif.Model Verif.Spec

/-! ### stable sorting and classes -/
section
variable {α : Type} {lt : α → α → Bool} {q : α → Bool}

theorem filter_insertSorted (hneg : ∀ a b c, lt a c = true → lt a b = true ∨ lt b c = true)
    (hq : ∀ a b, q a = true → q b = true → lt a b = false) (x : α) (l : List α)
    (hs : l.Pairwise (fun a b => lt b a = false)) :
    (insertSorted lt x l).filter q = l.filter q ++ [x].filter q := by
  induction l with
  | nil => rfl
  | cons y l ih =>
    rw [List.pairwise_cons] at hs
    simp only [insertSorted]
    split
    · rename_i hlt
      by_cases hx : q x = true
      · have hnone : (y :: l).filter q = [] := by
          rw [List.filter_eq_nil_iff]
          intro z hz hqz
          have h0 := hq x z hx hqz
          rcases List.mem_cons.1 hz with rfl | hz
          · rw [h0] at hlt; cases hlt
          · rcases hneg x z y hlt with h | h
            · rw [h0] at h; cases h
            · rw [hs.1 z hz] at h; cases h
        rw [List.filter_cons, if_pos hx, hnone]
        simp [hx]
      · rw [List.filter_cons, if_neg hx]
        simp [hx]
    · rw [List.filter_cons, List.filter_cons, ih hs.2]
      split <;> simp

theorem insertSorted_pairwise (hneg : ∀ a b c, lt a c = true → lt a b = true ∨ lt b c = true)
    (has : ∀ a b, lt a b = true → lt b a = false) (x : α) (l : List α)
    (hs : l.Pairwise (fun a b => lt b a = false)) :
    (insertSorted lt x l).Pairwise (fun a b => lt b a = false) := by
  induction l with
  | nil => simp [insertSorted]
  | cons y l ih =>
    rw [List.pairwise_cons] at hs
    simp only [insertSorted]
    split
    · rename_i hlt
      rw [List.pairwise_cons, List.pairwise_cons]
      refine ⟨?_, hs.1, hs.2⟩
      intro z hz
      rcases List.mem_cons.1 hz with rfl | hz
      · exact has _ _ hlt
      · by_cases hzx : lt z x = true
        · have hyx := has _ _ hlt
          rcases hneg z y x hzx with h | h
          · rw [hs.1 z hz] at h; cases h
          · rw [hyx] at h; cases h
        · simpa using hzx
    · rename_i hlt
      rw [List.pairwise_cons]
      refine ⟨?_, ih hs.2⟩
      intro z hz
      rcases List.mem_cons.1 ((insertSorted_perm x l).mem_iff.1 hz) with rfl | hz
      · simpa using hlt
      · exact hs.1 z hz

theorem pySorted_filter (hneg : ∀ a b c, lt a c = true → lt a b = true ∨ lt b c = true)
    (has : ∀ a b, lt a b = true → lt b a = false)
    (hq : ∀ a b, q a = true → q b = true → lt a b = false) (l : List α) :
    (pySorted lt l).Pairwise (fun a b => lt b a = false) ∧ (pySorted lt l).filter q = l.filter q := by
  have gen : ∀ (l acc : List α), acc.Pairwise (fun a b => lt b a = false) →
      (l.foldl (fun acc x => insertSorted lt x acc) acc).Pairwise (fun a b => lt b a = false) ∧
      (l.foldl (fun acc x => insertSorted lt x acc) acc).filter q = acc.filter q ++ l.filter q := by
    intro l
    induction l with
    | nil => intro acc h; exact ⟨h, by simp⟩
    | cons x l ih =>
      intro acc h
      obtain ⟨h1, h2⟩ := ih (insertSorted lt x acc) (insertSorted_pairwise hneg has x acc h)
      refine ⟨h1, ?_⟩
      rw [List.foldl_cons, h2, filter_insertSorted hneg hq x acc h, List.append_assoc, ← List.filter_append]
      rfl
  have := gen l [] (by simp)
  simpa [pySorted] using this

end

/-! ### the expected items -/

theorem keyLt_neg (a b c : RItem) (h : keyLt a c = true) : keyLt a b = true ∨ keyLt b c = true := by
  unfold keyLt at *
  split at h <;> split <;> split <;> simp_all <;> omega

theorem keyLt_asymm (a b : RItem) (h : keyLt a b = true) : keyLt b a = false := by
  unfold keyLt at *
  split at h <;> split <;> simp_all <;> omega

theorem takeWhile_eq_filter {α : Type} (q : α → Bool) (l : List α)
    (h : l.Pairwise (fun a b => q b = true → q a = true)) : l.takeWhile q = l.filter q := by
  induction l with
  | nil => rfl
  | cons x l ih =>
    rw [List.pairwise_cons] at h
    rw [List.takeWhile_cons, List.filter_cons]
    by_cases hx : q x = true
    · rw [if_pos hx, if_pos hx, ih h.2]
    · rw [if_neg hx, if_neg hx]
      symm
      rw [List.filter_eq_nil_iff]
      intro y hy hqy
      exact hx (h.1 y hy hqy)

theorem expected_eq (merged : List RItem) :
    (merged = [] → expectedReasonings merged = .error .stopIteration) ∧
    (merged ≠ [] → expectedReasonings merged = .ok (merged.filter (fun x => decide (BestItem merged x)))) := by
  refine ⟨?_, ?_⟩
  · rintro rfl; rfl
  · intro hne
    unfold expectedReasonings
    have hp := pySorted_perm (lt := keyLt) merged
    cases hs : pySorted keyLt merged with
    | nil => rw [hs] at hp; exact absurd hp.symm.eq_nil hne
    | cons x l =>
      simp only [Except.ok.injEq]
      have hq : ∀ a b, keyEq x a = true → keyEq x b = true → keyLt a b = false := by
        intro a b ha hb
        unfold keyEq at ha hb
        unfold keyLt
        simp only [decide_eq_true_eq] at ha hb
        rw [if_pos (by omega)]
        simp; omega
      obtain ⟨h1, h2⟩ := pySorted_filter (lt := keyLt) (q := keyEq x) keyLt_neg keyLt_asymm hq merged
      rw [hs] at h1 h2 hp
      rw [List.pairwise_cons] at h1
      have hself : keyEq x x = true := by simp [keyEq]
      have htw : l.takeWhile (keyEq x) = l.filter (keyEq x) := by
        apply takeWhile_eq_filter
        refine h1.2.imp_of_mem ?_
        intro a b ha hb hba heq
        have h3 := h1.1 a ha
        unfold keyEq at heq ⊢
        unfold keyLt at hba h3
        simp only [decide_eq_true_eq] at heq ⊢
        split at hba <;> split at h3 <;> simp only [decide_eq_false_iff_not] at hba h3 <;> omega
      rw [htw, show x :: l.filter (keyEq x) = (x :: l).filter (keyEq x) by rw [List.filter_cons, if_pos hself], h2]
      apply List.filter_congr
      intro y hy
      have hall : ∀ z ∈ merged, keyLt z x = false := by
        intro z hz
        rcases List.mem_cons.1 (hp.mem_iff.2 hz) with rfl | hz
        · unfold keyLt; simp
        · exact h1.1 z hz
      have hx : x ∈ merged := hp.mem_iff.1 (by simp)
      have : keyEq x y = true ↔ BestItem merged y := by
        constructor
        · intro h z hz
          have h3 := hall z hz
          unfold keyLt at h3
          unfold keyEq at h
          simp only [decide_eq_true_eq] at h
          split at h3 <;> simp_all <;> omega
        · intro h
          have h3 := h x hx
          have h4 := hall y hy
          unfold keyLt at h4
          unfold keyEq
          simp only [decide_eq_true_eq]
          split at h4 <;> simp_all <;> omega
      by_cases hb : BestItem merged y
      · rw [this.2 hb]; simp [hb]
      · simp only [hb, decide_false]
        by_cases hk : keyEq x y = true
        · exact absurd (this.1 hk) hb
        · simpa using hk

/-! ### merging -/

theorem fold_reduce (l : List RItem) (x : RItem) :
    (∃ y ∈ x :: l, y.step = (l.foldl reduceUseful x).step) ∧
    (∀ y ∈ x :: l, (l.foldl reduceUseful x).step ≤ y.step) ∧
    (∀ k, k ∈ kindsOf (l.foldl reduceUseful x).useful ↔
      ∃ y ∈ x :: l, y.step = (l.foldl reduceUseful x).step ∧ k ∈ kindsOf y.useful) ∧
    (∀ t ∈ (l.foldl reduceUseful x).useful, ∃ y ∈ x :: l, y.step = (l.foldl reduceUseful x).step ∧ t ∈ y.useful) ∧
    ((∀ y ∈ x :: l, (kindsOf y.useful).Nodup) → (kindsOf (l.foldl reduceUseful x).useful).Nodup) := by
  induction l generalizing x with
  | nil =>
    refine ⟨⟨x, by simp, rfl⟩, by simp, by simp, ?_, ?_⟩
    · intro t ht; exact ⟨x, by simp, rfl, ht⟩
    · intro h; exact h x (by simp)
  | cons y l ih =>
    rw [List.foldl_cons]
    obtain ⟨⟨z, hz, hzs⟩, h2, h3, h4, h5⟩ := ih (reduceUseful x y)
    rcases Int.lt_trichotomy x.step y.step with hlt | heq | hgt
    · have hr : reduceUseful x y = x := by
        unfold reduceUseful
        rw [if_neg (by omega), if_neg (by omega)]
      rw [hr] at hz hzs h2 h3 h4 h5 ⊢
      have hx := h2 x (by simp)
      refine ⟨⟨z, ?_, hzs⟩, ?_, ?_, ?_, ?_⟩
      · rcases List.mem_cons.1 hz with rfl | h <;> simp_all
      · intro w hw
        rcases List.mem_cons.1 hw with rfl | hw
        · exact hx
        · rcases List.mem_cons.1 hw with rfl | hw
          · omega
          · exact h2 w (by simp [hw])
      · intro k
        rw [h3]
        constructor
        · rintro ⟨w, hw, a, b⟩
          refine ⟨w, ?_, a, b⟩
          rcases List.mem_cons.1 hw with rfl | h <;> simp_all
        · rintro ⟨w, hw, a, b⟩
          rcases List.mem_cons.1 hw with rfl | hw
          · exact ⟨w, by simp, a, b⟩
          · rcases List.mem_cons.1 hw with rfl | hw
            · omega
            · exact ⟨w, by simp [hw], a, b⟩
      · intro t ht
        obtain ⟨w, hw, a, b⟩ := h4 t ht
        refine ⟨w, ?_, a, b⟩
        rcases List.mem_cons.1 hw with rfl | h <;> simp_all
      · intro h
        apply h5
        intro w hw
        apply h
        rcases List.mem_cons.1 hw with rfl | h <;> simp_all
    · have hr : reduceUseful x y = ⟨x.discard, x.step, setUpdate x.useful y.useful, 0⟩ := by
        unfold reduceUseful
        rw [if_neg (by omega), if_pos heq]
      have hrs : (reduceUseful x y).step = x.step := by rw [hr]
      have hru : (reduceUseful x y).useful = setUpdate x.useful y.useful := by rw [hr]
      have hx := h2 (reduceUseful x y) (by simp)
      rw [hrs] at hx
      refine ⟨?_, ?_, ?_, ?_, ?_⟩
      · rcases List.mem_cons.1 hz with rfl | h
        · exact ⟨x, by simp, by rw [← hzs, hrs]⟩
        · exact ⟨z, by simp [h], hzs⟩
      · intro w hw
        rcases List.mem_cons.1 hw with rfl | hw
        · exact hx
        · rcases List.mem_cons.1 hw with rfl | hw
          · omega
          · exact h2 w (by simp [hw])
      · intro k
        rw [h3]
        constructor
        · rintro ⟨w, hw, a, b⟩
          rcases List.mem_cons.1 hw with rfl | h
          · rw [hru, mem_setUpdate] at b
            rcases b with b | b
            · exact ⟨x, by simp, by rw [← a, hrs], b⟩
            · exact ⟨y, by simp, by rw [← a, hrs, heq], b⟩
          · exact ⟨w, by simp [h], a, b⟩
        · rintro ⟨w, hw, a, b⟩
          rcases List.mem_cons.1 hw with rfl | hw
          · exact ⟨reduceUseful w y, by simp, by rw [hrs]; exact a, by rw [hru, mem_setUpdate]; exact Or.inl b⟩
          · rcases List.mem_cons.1 hw with rfl | hw
            · exact ⟨reduceUseful x w, by simp, by rw [hrs, heq]; exact a, by rw [hru, mem_setUpdate]; exact Or.inr b⟩
            · exact ⟨w, by simp [hw], a, b⟩
      · intro t ht
        obtain ⟨w, hw, a, b⟩ := h4 t ht
        rcases List.mem_cons.1 hw with rfl | h
        · rw [hru] at b
          rcases mem_setUpdate_tile b with b | b
          · exact ⟨x, by simp, by rw [← a, hrs], b⟩
          · exact ⟨y, by simp, by rw [← a, hrs, heq], b⟩
        · exact ⟨w, by simp [h], a, b⟩
      · intro h
        apply h5
        intro w hw
        rcases List.mem_cons.1 hw with rfl | hw
        · rw [hru]; exact nodup_setUpdate (h x (by simp))
        · exact h w (by simp [hw])
    · have hr : reduceUseful x y = y := by
        unfold reduceUseful
        rw [if_pos (by omega)]
      rw [hr] at hz hzs h2 h3 h4 h5 ⊢
      have hy := h2 y (by simp)
      refine ⟨⟨z, List.mem_cons_of_mem _ hz, hzs⟩, ?_, ?_, ?_, ?_⟩
      · intro w hw
        rcases List.mem_cons.1 hw with rfl | hw
        · omega
        · exact h2 w hw
      · intro k
        rw [h3]
        constructor
        · rintro ⟨w, hw, a, b⟩
          exact ⟨w, List.mem_cons_of_mem _ hw, a, b⟩
        · rintro ⟨w, hw, a, b⟩
          rcases List.mem_cons.1 hw with rfl | hw
          · omega
          · exact ⟨w, hw, a, b⟩
      · intro t ht
        obtain ⟨w, hw, a, b⟩ := h4 t ht
        exact ⟨w, List.mem_cons_of_mem _ hw, a, b⟩
      · intro h
        exact h5 (fun w hw => h w (List.mem_cons_of_mem _ hw))

theorem pyMin_steps (l : List RItem) (x : RItem) :
    pyMin ((x :: l).map RItem.step) = .ok (l.foldl reduceUseful x).step := by
  simp only [List.map_cons, pyMin, Except.ok.injEq]
  induction l generalizing x with
  | nil => rfl
  | cons y l ih =>
    rw [List.map_cons, List.foldl_cons, List.foldl_cons, ← ih (reduceUseful x y)]
    congr 1
    unfold reduceUseful
    by_cases h1 : x.step > y.step
    · rw [if_pos h1, if_pos (by omega)]
    · rw [if_neg h1, if_neg (by omega)]
      split <;> rfl

/-! ### counting -/

theorem range_filter_count (inv : List InvElem) (hnd : inv.Nodup) (a : Int) (m : Nat) :
    (((List.range m).map (fun (i : Nat) => a + (i : Int))).filter (fun n => decide (InvElem.num n ∈ inv))).length =
      (inv.filter (fun x => match x with | .num n => decide (a ≤ n ∧ n < a + m) | .tup _ _ _ => false)).length := by
  have h1 : (((List.range m).map (fun (i : Nat) => a + (i : Int))).filter (fun n => decide (InvElem.num n ∈ inv))).map InvElem.num
      |>.Perm (inv.filter (fun x => match x with | .num n => decide (a ≤ n ∧ n < a + m) | .tup _ _ _ => false)) := by
    apply (List.perm_ext_iff_of_nodup ?_ (hnd.filter _)).2
    · intro x
      simp only [List.mem_map, List.mem_filter, List.mem_range, decide_eq_true_eq]
      cases x with
      | num n =>
        constructor
        · rintro ⟨y, ⟨⟨i, hi, rfl⟩, hm⟩, he⟩
          cases he
          exact ⟨hm, by simp; omega⟩
        · rintro ⟨hm, hr⟩
          simp only [decide_eq_true_eq] at hr
          exact ⟨n, ⟨⟨(n - a).toNat, by omega, by omega⟩, hm⟩, rfl⟩
      | tup b c d => simp
    · apply List.Nodup.map (fun x y h => by cases h; rfl)
      apply List.Nodup.filter
      exact List.nodup_range.map (fun i j h => by have h : a + (i : Int) = a + (j : Int) := h; omega)
  have := h1.length_eq
  simpa using this

/-- the range of a real tile: the block of its kind, or for a red five the block before the suit -/
theorem range_counted (t : Tile) (ht : RealTile t) :
    ∃ a : Int, tileToTenhouRange t = .ok (a, a + 4) ∧
      ∀ n, (0 ≤ n → ((a ≤ n ∧ n < a + 4) ↔ ∃ k, countedKind t = some k ∧ CopyOf n k)) ∧
        (n < 0 → countedKind t ≠ none → ¬ (a ≤ n ∧ n < a + 4)) := by
  obtain ⟨c, num, aka⟩ := t
  have key : ∀ j : Fin 34, ∀ i : Fin 34, allKinds[i.val]? = allKinds[j.val]? → i = j := by decide +kernel
  have blk : ∀ (k : Kind) (j : Nat), j < 34 → allKinds[j]? = some k → ∀ n : Int, 0 ≤ n →
      (((4 * j : Nat) : Int) ≤ n ∧ n < ((4 * j : Nat) : Int) + 4 ↔ CopyOf n k) := by
    intro k j hj hk n hn
    unfold CopyOf
    constructor
    · rintro ⟨h1, h2⟩
      refine ⟨hn, by omega, ?_⟩
      rw [show (n / 4).toNat = j by omega]; exact hk
    · rintro ⟨_, h2, h3⟩
      have := key ⟨j, hj⟩ ⟨(n / 4).toNat, by omega⟩ (by show allKinds[(n / 4).toNat]? = allKinds[j]?; rw [h3, hk])
      have := congrArg Fin.val this
      simp only at this
      omega
  by_cases ha : aka = true
  · subst ha
    obtain ⟨_, h2⟩ := ht
    obtain ⟨h3, h4⟩ := h2 rfl
    simp only at h3 h4
    subst h3
    cases c with
    | m =>
      refine ⟨-4, by decide +kernel, ?_⟩
      intro n
      refine ⟨fun hn => ⟨fun h => by omega, ?_⟩, fun _ h => absurd rfl h⟩
      rintro ⟨k, hk, _⟩
      simp [countedKind] at hk
    | p =>
      refine ⟨32, by decide +kernel, ?_⟩
      intro n
      refine ⟨fun hn => ?_, fun h _ => by omega⟩
      rw [show ((32 : Int) ≤ n ∧ n < 32 + 4) ↔ _ from blk (.m, 9) 8 (by decide) (by decide) n hn]
      simp [countedKind]
    | s =>
      refine ⟨68, by decide +kernel, ?_⟩
      intro n
      refine ⟨fun hn => ?_, fun h _ => by omega⟩
      rw [show ((68 : Int) ≤ n ∧ n < 68 + 4) ↔ _ from blk (.p, 9) 17 (by decide) (by decide) n hn]
      simp [countedKind]
    | z => exact absurd rfl h4
  · have ha : aka = false := by simpa using ha
    subst ha
    have tab : ∀ j : Fin 34, ∀ k, allKinds[j.val]? = some k →
        tileToTenhouRange ⟨k.1, k.2, false⟩ = .ok (((4 * j.val : Nat) : Int), ((4 * j.val : Nat) : Int) + 4) := by
      have : ∀ j : Fin 34, (allKinds[j.val]?).all (fun k => decide (
        tileToTenhouRange ⟨k.1, k.2, false⟩ = .ok (((4 * j.val : Nat) : Int), ((4 * j.val : Nat) : Int) + 4))) = true := by
        decide +kernel
      intro j k hk
      have := this j
      rw [hk] at this
      simpa using this
    have hv : ValidKind (c, num) := ht.1
    have hmem : (c, num) ∈ allKinds := by
      rcases hv with ⟨h1, h2, h3⟩ | ⟨h1, h2, h3⟩
      · simp only at h1 h2 h3
        have : num = 1 ∨ num = 2 ∨ num = 3 ∨ num = 4 ∨ num = 5 ∨ num = 6 ∨ num = 7 ∨ num = 8 ∨ num = 9 := by omega
        cases c <;> rcases this with rfl | rfl | rfl | rfl | rfl | rfl | rfl | rfl | rfl <;> first | decide | exact absurd rfl h1
      · simp only at h1 h2 h3
        subst h1
        have : num = 1 ∨ num = 2 ∨ num = 3 ∨ num = 4 ∨ num = 5 ∨ num = 6 ∨ num = 7 := by omega
        rcases this with rfl | rfl | rfl | rfl | rfl | rfl | rfl <;> decide
    obtain ⟨j, hj⟩ := List.mem_iff_getElem?.1 hmem
    have hlt : j < 34 := by
      have := (List.getElem?_eq_some_iff.1 hj).1
      simpa [allKinds] using this
    refine ⟨((4 * j : Nat) : Int), tab ⟨j, hlt⟩ _ hj, ?_⟩
    intro n
    refine ⟨fun hn => ?_, fun h _ => by omega⟩
    rw [blk (c, num) j hlt hj n hn]
    simp [countedKind, Tile.view]

/-- all numbers of a set are tile numbers -/
def TileNumbers (inv : List InvElem) : Prop := ∀ n, InvElem.num n ∈ inv → 0 ≤ n

theorem rangeCount_eq (inv : List InvElem) (hnd : inv.Nodup) (h0 : TileNumbers inv) (t : Tile) (ht : RealTile t) :
    rangeCount inv t = .ok (((countedKind t).elim 0 (unseen inv) : Nat) : Int) := by
  obtain ⟨a, h1, h2⟩ := range_counted t ht
  unfold rangeCount
  rw [h1]
  simp only [bind, Except.bind, pure, Except.pure, Except.ok.injEq]
  rw [show (a + 4 - a).toNat = 4 by omega]
  have := range_filter_count inv hnd a 4
  rw [this]
  congr 1
  cases hc : countedKind t with
  | none =>
    simp only [Option.elim]
    rw [List.length_eq_zero_iff, List.filter_eq_nil_iff]
    intro x hx
    cases x with
    | tup b c d => simp
    | num n =>
      have := (h2 n).1 (h0 n hx)
      rw [hc] at this
      simp only [decide_eq_true_eq]
      intro h
      obtain ⟨k, hk, _⟩ := this.1 h
      cases hk
  | some k =>
    simp only [Option.elim, unseen]
    congr 1
    apply List.filter_congr
    intro x hx
    cases x with
    | tup b c d => rfl
    | num n =>
      have := (h2 n).1 (h0 n hx)
      rw [hc] at this
      simp only
      apply decide_eq_decide.2
      rw [show ((4 : Nat) : Int) = 4 from rfl, this]
      simp

theorem usefulCount_eq (inv : List InvElem) (hnd : inv.Nodup) (h0 : TileNumbers inv) (us : List Tile)
    (hus : ∀ t ∈ us, RealTile t) :
    usefulCount inv us = .ok (((us.map (fun t => (countedKind t).elim 0 (unseen inv))).sum : Nat) : Int) := by
  unfold usefulCount
  rw [mapM_ok (rangeCount inv) (fun t => (((countedKind t).elim 0 (unseen inv) : Nat) : Int)) us
    (fun t ht => rangeCount_eq inv hnd h0 t (hus t ht))]
  simp only [bind, Except.bind, pure, Except.pure, Except.ok.injEq]
  induction us with
  | nil => rfl
  | cons t us ih =>
    simp only [List.map_cons, List.sum_cons]
    rw [ih (fun x hx => hus x (by simp [hx]))]
    omega

theorem copyOf_unique {n : Int} {j k : Kind} (h1 : CopyOf n j) (h2 : CopyOf n k) : j = k := by
  have := h1.2.2.symm.trans h2.2.2
  exact Option.some.inj this

theorem filter_or_length {α : Type} (p q r : α → Bool) (h : ∀ x, p x = true → q x = true → False)
    (hr : ∀ x, r x = (p x || q x)) (l : List α) : (l.filter p).length + (l.filter q).length = (l.filter r).length := by
  induction l with
  | nil => rfl
  | cons x l ih =>
    have := h x
    have h2 := hr x
    simp only [List.filter_cons]
    cases hp : p x <;> cases hq : q x <;> simp_all <;> omega

theorem unseen_sum (inv : List InvElem) (ks : List Kind) (hks : ks.Nodup) :
    (ks.map (unseen inv)).sum = unseenOf inv ks := by
  induction ks with
  | nil =>
    simp only [List.map_nil, List.sum_nil, unseenOf]
    symm
    rw [List.length_eq_zero_iff, List.filter_eq_nil_iff]
    intro x _
    cases x <;> simp
  | cons k ks ih =>
    rw [List.nodup_cons] at hks
    rw [List.map_cons, List.sum_cons, ih hks.2]
    unfold unseen unseenOf
    apply filter_or_length
    · intro x h1 h2
      cases x with
      | tup a b c => simp at h1
      | num n =>
        simp only [decide_eq_true_eq] at h1 h2
        obtain ⟨j, hj, hc⟩ := h2
        rw [copyOf_unique h1 hc] at hks
        exact hks.1 hj
    · intro x
      cases x with
      | tup a b c => rfl
      | num n => simp only [List.mem_cons, exists_eq_or_imp, Bool.decide_or]

end Verif.Proofs
