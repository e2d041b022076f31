import Verif.Spec.Record
import Verif.Proofs.Stage
import Verif.Proofs.StableSort

namespace Verif.Proofs
open Verif.Py Verif.Model Verif.Spec

/-! ### numbers -/

theorem ten_pos (k : Nat) : (0 : Int) < 10 ^ k := Int.pow_pos (by omega)

theorem num_weak : Weak Num.lt := by
  have cross : ∀ a b c x y z : Int, 0 < x → 0 < y → 0 < z → a * y < b * x → b * z < c * y → a * z < c * x := by
    intro a b c x y z hx hy hz h1 h2
    have e1 : a * y * z < b * x * z := Int.mul_lt_mul_of_pos_right h1 hz
    have e2 : b * z * x < c * y * x := Int.mul_lt_mul_of_pos_right h2 hx
    have e3 : b * x * z = b * z * x := by rw [Int.mul_assoc, Int.mul_assoc, Int.mul_comm x z]
    have e4 : a * y * z = a * z * y := by rw [Int.mul_assoc, Int.mul_assoc, Int.mul_comm y z]
    have e5 : c * y * x = c * x * y := by rw [Int.mul_assoc, Int.mul_assoc, Int.mul_comm y x]
    have : a * z * y < c * x * y := by omega
    exact Int.lt_of_mul_lt_mul_right this (Int.le_of_lt hy)
  have crossle : ∀ a b c x y z : Int, 0 < x → 0 < y → 0 < z → b * x ≤ a * y → c * y ≤ b * z → c * x ≤ a * z := by
    intro a b c x y z hx hy hz h1 h2
    have e1 : b * x * z ≤ a * y * z := Int.mul_le_mul_of_nonneg_right h1 (Int.le_of_lt hz)
    have e2 : c * y * x ≤ b * z * x := Int.mul_le_mul_of_nonneg_right h2 (Int.le_of_lt hx)
    have e3 : b * x * z = b * z * x := by rw [Int.mul_assoc, Int.mul_assoc, Int.mul_comm x z]
    have e4 : a * y * z = a * z * y := by rw [Int.mul_assoc, Int.mul_assoc, Int.mul_comm y z]
    have e5 : c * y * x = c * x * y := by rw [Int.mul_assoc, Int.mul_assoc, Int.mul_comm y x]
    have : c * x * y ≤ a * z * y := by omega
    exact Int.le_of_mul_le_mul_right this hy
  refine ⟨?_, ?_, ?_⟩
  · intro a; simp [Num.lt]
  · intro a b c
    simp only [Num.lt, decide_eq_true_eq]
    exact cross _ _ _ _ _ _ (ten_pos _) (ten_pos _) (ten_pos _)
  · intro a b c
    simp only [Num.lt, decide_eq_false_iff_not, Int.not_lt]
    exact crossle _ _ _ _ _ _ (ten_pos _) (ten_pos _) (ten_pos _)

theorem norm_value (m : Int) (k : Nat) : (Num.norm m k).num * 10 ^ k = m * 10 ^ (Num.norm m k).scale := by
  induction k generalizing m with
  | zero => rfl
  | succ k ih =>
    rw [Num.norm]
    split
    · next h =>
      rw [Int.pow_succ, ← Int.mul_assoc, ih]
      have : m / 10 * 10 = m := by omega
      rw [Int.mul_assoc, Int.mul_comm (10 ^ _) 10, ← Int.mul_assoc, this]
    · rfl

/-- comparing through equal values -/
theorem lt_congr {a a' b b' : Num} (ca cb : Int) (_hca : 0 < ca)
    (ha : a'.num * 10 ^ a.scale = ca * a.num * 10 ^ a'.scale)
    (hb : b'.num * 10 ^ b.scale = cb * b.num * 10 ^ b'.scale) (hc : ca = cb) : Num.lt a' b' = Num.lt a b := by
  subst hc
  simp only [Num.lt]
  congr 1
  apply propext
  have p1 := ten_pos a.scale
  have p2 := ten_pos b.scale
  have p3 := ten_pos a'.scale
  have p4 := ten_pos b'.scale
  generalize (10 : Int) ^ a.scale = x at *
  generalize (10 : Int) ^ b.scale = y at *
  generalize (10 : Int) ^ a'.scale = x' at *
  generalize (10 : Int) ^ b'.scale = y' at *
  generalize a.num = m at *
  generalize b.num = n at *
  generalize a'.num = m' at *
  generalize b'.num = n' at *
  -- m' x = c m x', n' y = c n y'
  have key1 : m' * y' * (x * y) = (m * y) * (ca * x' * y') := by
    calc m' * y' * (x * y) = (m' * x) * (y' * y) := by
          rw [Int.mul_assoc, Int.mul_assoc, Int.mul_left_comm y' x y]
      _ = (ca * m * x') * (y' * y) := by rw [ha]
      _ = (m * y) * (ca * x' * y') := by
          rw [Int.mul_comm y' y, Int.mul_comm ca m]
          simp only [Int.mul_assoc]
          congr 1
          rw [Int.mul_left_comm y ca, Int.mul_left_comm y x']
  have key2 : n' * x' * (x * y) = (n * x) * (ca * x' * y') := by
    calc n' * x' * (x * y) = (n' * y) * (x' * x) := by
          rw [Int.mul_comm x y, Int.mul_assoc, Int.mul_assoc, Int.mul_left_comm x' y x]
      _ = (ca * n * y') * (x' * x) := by rw [hb]
      _ = (n * x) * (ca * x' * y') := by
          rw [Int.mul_comm ca n]
          simp only [Int.mul_assoc]
          congr 1
          rw [Int.mul_left_comm x ca, Int.mul_comm x' x, Int.mul_left_comm y' x x', Int.mul_comm y' x']
  have hxy : 0 < x * y := Int.mul_pos p1 p2
  have hcc : 0 < ca * x' * y' := Int.mul_pos (Int.mul_pos _hca p3) p4
  constructor
  · intro h
    have := Int.mul_lt_mul_of_pos_right h hxy
    rw [key1, key2] at this
    exact Int.lt_of_mul_lt_mul_right this (Int.le_of_lt hcc)
  · intro h
    have := Int.mul_lt_mul_of_pos_right h hcc
    rw [← key1, ← key2] at this
    exact Int.lt_of_mul_lt_mul_right this (Int.le_of_lt hxy)

theorem mul100_value (a : Num) : a.mul100.num * 10 ^ a.scale = 100 * a.num * 10 ^ a.mul100.scale := by
  cases a with
  | int n => simp [Num.mul100, Num.num, Num.scale]; omega
  | dec m k =>
    show (Num.norm (m * 100) k).num * 10 ^ k = 100 * m * 10 ^ (Num.norm (m * 100) k).scale
    rw [norm_value, Int.mul_comm 100 m]

theorem lt_mul100 (a b : Num) : Num.lt a.mul100 b.mul100 = Num.lt a b :=
  lt_congr 100 100 (by omega) (mul100_value a) (mul100_value b) rfl

theorem lt_neg (a b : Num) : Num.lt a.neg b.neg = Num.lt b a := by
  have h1 : ∀ a : Num, a.neg.num = -a.num := by intro a; cases a <;> rfl
  have h2 : ∀ a : Num, a.neg.scale = a.scale := by intro a; cases a <;> rfl
  simp only [Num.lt, h1, h2, Int.neg_mul]
  congr 1
  apply propext
  omega

theorem lt_iff (a b : Num) : Num.lt a b = true ↔ Smaller a b := by simp [Num.lt, Smaller]

/-! ### standings -/

/-- better score first -/
def better (a b : Num) : Bool := Num.lt b a

theorem better_weak : Weak better := by
  refine ⟨fun a => num_weak.irrefl a, fun a b c h1 h2 => num_weak.trans c b a h2 h1,
    fun a b c h1 h2 => num_weak.neg_trans c b a h2 h1⟩

theorem everyOther_get {α : Type} (l : List α) (i : Nat) : (everyOther l)[i]? = l[2 * i]? := by
  induction l using everyOther.induct generalizing i with
  | case1 => simp [everyOther]
  | case2 a => cases i <;> simp [everyOther]
  | case3 a b l ih =>
    cases i with
    | zero => simp [everyOther]
    | succ i => simp only [everyOther, List.getElem?_cons_succ, ih, Nat.mul_succ]

theorem everyOther_tail_get {α : Type} (l : List α) (i : Nat) : (everyOther l.tail)[i]? = l[2 * i + 1]? := by
  rw [everyOther_get]
  cases l <;> simp

/-- the order by (score, seat) of a list of scores -/
def seatOrder (scores : List Num) : List (Num × Nat) := pySorted (ltI better) scores.zipIdx

theorem rankOrder_eq (finals : List Num) (n : Nat) :
    rankOrder finals n = (seatOrder ((everyOther finals).take n)).map (fun e => (e.1.mul100.neg, e.2)) := by
  unfold rankOrder finalScores seatOrder
  rw [← pySorted_map (ltI better) rankLt]
  · congr 1
    rw [← List.map_take, List.zipIdx_map, List.map_map]
    rfl
  · intro x _ y _
    simp only [rankLt, ltI, better, lt_neg, lt_mul100]
    rfl

theorem seatOrder_perm (scores : List Num) : (seatOrder scores).Perm scores.zipIdx := pySorted_perm _

theorem seatOrder_seats (scores : List Num) : ((seatOrder scores).map (·.2)).Perm (List.range scores.length) := by
  have := (seatOrder_perm scores).map (·.2)
  rw [List.zipIdx_map_snd] at this
  simpa [List.range_eq_range'] using this

theorem mem_zipIdx {α : Type} {l : List α} {x : α × Nat} : x ∈ l.zipIdx ↔ l[x.2]? = some x.1 := by
  rw [← List.mk_mem_zipIdx_iff_getElem?]

/-- the position of a seat in the order is the number of seats finishing before it -/
theorem seatOrder_pos (scores : List Num) (i : Nat) (x : Num × Nat) (hi : (seatOrder scores)[i]? = some x) :
    i + 1 = place scores scores.length x.2 := by
  have S := better_weak.strict
  have hs := pySorted_sorted S scores.zipIdx (by simp)
  have hnd : (scores.zipIdx.map (·.2)).Nodup := by
    rw [List.zipIdx_map_snd]; exact List.nodup_range'
  have hne : (seatOrder scores).Pairwise (fun a b => eqI better a b = false) := by
    have h1 : ((seatOrder scores).map (·.2)).Nodup := ((seatOrder_perm scores).map (·.2)).nodup_iff.2 hnd
    rw [List.Nodup, List.pairwise_map] at h1
    refine h1.imp ?_
    intro a b hab
    simp [eqI, hab]
  have h := sorted_position S (seatOrder scores) (by simp) hs hne i x hi
  rw [(seatOrder_perm scores).countP_eq] at h
  have hx : scores[x.2]? = some x.1 := mem_zipIdx.1 ((seatOrder_perm scores).mem_iff.1 (List.mem_of_getElem? hi))
  rw [place, ← h, List.countP_eq_length_filter]
  have e : ((scores.zipIdx.filter (fun y => ltI better y x)).map (·.2)) =
      (List.range scores.length).filter (fun q => decide (Before scores q x.2)) := by
    have e0 : List.range scores.length = scores.zipIdx.map (·.2) := by
      rw [List.zipIdx_map_snd, List.range_eq_range']
    rw [e0, List.filter_map]
    congr 1
    apply List.filter_congr
    intro y hy
    have hy' := mem_zipIdx.1 hy
    simp only [Function.comp, Before, hy', hx, ltI, better]
    by_cases h1 : Smaller x.1 y.1
    · simp [(lt_iff _ _).2 h1, h1]
    · have h1' : Num.lt x.1 y.1 = false := by
        cases hh : Num.lt x.1 y.1 with
        | false => rfl
        | true => exact absurd ((lt_iff _ _).1 hh) h1
      by_cases h2 : Smaller y.1 x.1
      · simp [(lt_iff _ _).2 h2, h1', h1, h2]
      · have h2' : Num.lt y.1 x.1 = false := by
          cases hh : Num.lt y.1 x.1 with
          | false => rfl
          | true => exact absurd ((lt_iff _ _).1 hh) h2
        simp [h1', h2', h1, h2]
  have := congrArg List.length e
  simp only [List.length_map] at this
  omega

/-- every seat occurs, at its place -/
theorem seatOrder_at (scores : List Num) (n p : Nat) (hn : scores.length = n) (hp : p < n) :
    (∃ s, scores[p]? = some s ∧ (seatOrder scores)[place scores n p - 1]? = some (s, p)) ∧
    1 ≤ place scores n p := by
  subst hn
  have hm : (scores[p], p) ∈ seatOrder scores := by
    rw [(seatOrder_perm scores).mem_iff]
    exact mem_zipIdx.2 (by simp [hp])
  obtain ⟨i, hi⟩ := List.mem_iff_getElem?.1 hm
  have := seatOrder_pos scores i _ hi
  simp only at this
  exact ⟨⟨scores[p], by simp [hp], by rw [← this]; simpa using hi⟩, by omega⟩

theorem before_take (scores : List Num) (n q p : Nat) (hq : q < n) (hp : p < n) :
    Before (scores.take n) q p ↔ Before scores q p := by
  simp [Before, hq, hp]

theorem place_take (scores : List Num) (n p : Nat) (hp : p < n) : place (scores.take n) n p = place scores n p := by
  unfold place
  congr 2
  apply List.filter_congr
  intro q hq
  have hq' : q < n := List.mem_range.1 hq
  rw [decide_eq_decide]
  exact before_take scores n q p hq' hp

theorem rankOf_eq (finals : List Num) (n p : Nat) (hn : n ≤ (everyOther finals).length) (hp : p < n) :
    rankOf finals n p = .ok (place (everyOther finals) n p) := by
  unfold rankOf
  have hl : ((everyOther finals).take n).length = n := by simp; omega
  have h := seatOrder_at ((everyOther finals).take n) n p hl hp
  rw [place_take _ _ _ hp] at h
  obtain ⟨⟨sc, -, h⟩, h1k⟩ := h
  generalize place (everyOther finals) n p = k at *
  rw [rankOrder_eq]
  have hnd : ((seatOrder ((everyOther finals).take n)).map (·.2)).Nodup :=
    (seatOrder_seats _).nodup_iff.2 List.nodup_range
  generalize seatOrder ((everyOther finals).take n) = so at *
  have e : (so.map (fun e => ((e.1.mul100.neg, e.2) : Num × Nat))).findIdx? (fun e => decide (e.2 = p)) = some (k - 1) := by
    rw [List.findIdx?_eq_some_iff_getElem]
    have hk : k - 1 < so.length := by
      rcases Nat.lt_or_ge (k - 1) so.length with h' | h'
      · exact h'
      · rw [List.getElem?_eq_none (by omega)] at h; simp at h
    refine ⟨by simpa using hk, ?_, ?_⟩
    · rw [List.getElem?_eq_getElem hk] at h
      simp only [Option.some.injEq] at h
      simp [h]
    · intro j hj
      simp only [List.getElem_map, decide_eq_true_eq]
      intro hjp
      have hj' : j < so.length := by omega
      rw [List.getElem?_eq_getElem hk] at h
      simp only [Option.some.injEq] at h
      have := List.pairwise_iff_getElem.1 hnd j (k - 1) (by simpa using hj') (by simpa using hk) (by omega)
      simp only [List.getElem_map, hjp, h, ne_eq, not_true_eq_false] at this
  rw [e]
  simp only
  congr 1
  omega

theorem standing_eq (r : TRecord) :
    ∃ S : List ((TPlayer × Num × Num) × Nat), r.standing = S.map (·.1) ∧
      S.Perm (r.players.zip (r.endScore.zip r.endPoint)).zipIdx ∧
      S.map (fun e => (e.1.2.1, e.2)) = seatOrder ((r.players.zip (r.endScore.zip r.endPoint)).map (fun e => e.2.1)) := by
  refine ⟨pySorted (ltI (fun a b : TPlayer × Num × Num => Num.lt b.2.1 a.2.1)) (r.players.zip (r.endScore.zip r.endPoint)).zipIdx,
    pySorted_stable _ _, pySorted_perm _, ?_⟩
  unfold seatOrder
  rw [List.zipIdx_map]
  rw [← pySorted_map (ltI (fun a b : TPlayer × Num × Num => Num.lt b.2.1 a.2.1)) (ltI better)]
  · rfl
  · intro x _ y _
    rfl

theorem ltI_better_iff (a b : Num) (p q : Nat) : ltI better (a, p) (b, q) = true ↔ (Smaller b a ∨ (¬ Smaller a b ∧ p < q)) := by
  simp only [ltI, better, ← lt_iff]
  by_cases h1 : Num.lt b a = true <;> by_cases h2 : Num.lt a b = true <;> simp [h1, h2]

theorem place_lt_iff (scores : List Num) (n p q : Nat) (hn : n ≤ scores.length) (hp : p < n) (hq : q < n) (hpq : p ≠ q)
    (a b : Num) (ha : scores[p]? = some a) (hb : scores[q]? = some b) :
    place scores n p < place scores n q ↔ (Smaller b a ∨ (¬ Smaller a b ∧ p < q)) := by
  have hl : (scores.take n).length = n := by simp; omega
  obtain ⟨⟨sp, hsp, gp⟩, kp⟩ := seatOrder_at _ n p hl hp
  obtain ⟨⟨sq, hsq, gq⟩, kq⟩ := seatOrder_at _ n q hl hq
  rw [place_take _ _ _ hp] at gp kp
  rw [place_take _ _ _ hq] at gq kq
  rw [List.getElem?_take, if_pos hp, ha] at hsp
  rw [List.getElem?_take, if_pos hq, hb] at hsq
  obtain rfl := Option.some.inj hsp
  obtain rfl := Option.some.inj hsq
  have S := better_weak.strict
  have hs := pySorted_sorted S (scores.take n).zipIdx (by simp)
  rw [← ltI_better_iff]
  have key : ∀ (i j : Nat) (x y : Num × Nat), (seatOrder (scores.take n))[i]? = some x →
      (seatOrder (scores.take n))[j]? = some y → i < j → ltI better y x = false := by
    intro i j x y hx hy hij
    obtain ⟨hi, rfl⟩ := List.getElem?_eq_some_iff.1 hx
    obtain ⟨hj, rfl⟩ := List.getElem?_eq_some_iff.1 hy
    exact List.pairwise_iff_getElem.1 hs i j hi hj hij
  rcases Nat.lt_trichotomy (place scores n p) (place scores n q) with h | h | h
  · have h1 := key _ _ _ _ gp gq (by omega)
    rcases S.tri (a, p) (b, q) trivial trivial with h2 | h2 | h2
    · exact ⟨fun _ => h2, fun _ => h⟩
    · simp [eqI, hpq] at h2
    · rw [h1] at h2; cases h2
  · rw [h, gq] at gp
    simp only [Option.some.injEq, Prod.mk.injEq] at gp
    exact absurd gp.2.symm hpq
  · have h1 := key _ _ _ _ gq gp (by omega)
    simp [h1]; omega

theorem zip_zip_get {α β γ : Type} (a : List α) (b : List β) (c : List γ) (i : Nat) (x : α × β × γ) :
    (a.zip (b.zip c))[i]? = some x ↔ a[i]? = some x.1 ∧ b[i]? = some x.2.1 ∧ c[i]? = some x.2.2 := by
  rw [List.getElem?_zip_eq_some, List.getElem?_zip_eq_some]

theorem strParts_at (r : TRecord) (n : Nat) (h1 : r.players.length = n) (h2 : n ≤ r.endScore.length)
    (h3 : n ≤ r.endPoint.length) (p : Nat) (hp : p < n) :
    ∃ pl pt, r.players[p]? = some pl ∧ r.endPoint[p]? = some pt ∧
      r.strParts.2[place r.endScore n p - 1]? = some (place r.endScore n p, pl, pt) := by
  obtain ⟨S, e1, e2, e3⟩ := standing_eq r
  have hz : (r.players.zip (r.endScore.zip r.endPoint)).map (fun e => e.2.1) = r.endScore.take n := by
    apply List.ext_getElem?
    intro i
    rw [List.getElem?_map, List.getElem?_take]
    split
    · next hi =>
      have a1 : r.players[i]? = some (r.players[i]) := List.getElem?_eq_getElem (by omega)
      have a2 : r.endScore[i]? = some (r.endScore[i]) := List.getElem?_eq_getElem (by omega)
      have a3 : r.endPoint[i]? = some (r.endPoint[i]) := List.getElem?_eq_getElem (by omega)
      have := (zip_zip_get r.players r.endScore r.endPoint i (r.players[i], r.endScore[i], r.endPoint[i])).2 ⟨a1, a2, a3⟩
      rw [this, a2]; rfl
    · next hi =>
      rw [List.getElem?_eq_none (by simp only [List.length_zip]; omega)]; rfl
  rw [hz] at e3
  have hl : (r.endScore.take n).length = n := by simp; omega
  obtain ⟨⟨s, hs, h⟩, hk⟩ := seatOrder_at (r.endScore.take n) n p hl hp
  rw [place_take _ _ _ hp] at h hk
  generalize place r.endScore n p = k at *
  rw [← e3, List.getElem?_map] at h
  obtain ⟨x, hx, hx2⟩ := Option.map_eq_some_iff.1 h
  have hm := mem_zipIdx.1 (e2.mem_iff.1 (List.mem_of_getElem? hx))
  rw [zip_zip_get] at hm
  have hxp : x.2 = p := by simpa using (congrArg Prod.snd hx2)
  rw [hxp] at hm
  refine ⟨x.1.1, x.1.2.2, hm.1, hm.2.2, ?_⟩
  simp only [TRecord.strParts, e1, List.getElem?_map, List.getElem?_zipIdx, hx, Option.map_some]
  congr 2
  omega


/-! ### chunks -/

theorem inOrder_two (a b : Bool) (keys : List Bool) :
    InOrder [a, b] keys ↔ ∃ m n, keys = List.replicate m a ++ List.replicate n b := by
  constructor
  · rintro ⟨counts, hl, rfl⟩
    match counts, hl with
    | [m, n], _ => exact ⟨m, n, by simp⟩
  · rintro ⟨m, n, rfl⟩
    exact ⟨[m, n], rfl, by simp⟩

theorem oneGroup_tf (keys : List Bool) :
    OneGroup [true, false] keys ↔ keys ≠ [] ∧ ∃ m n, keys = List.replicate m true ++ List.replicate n false := by
  unfold OneGroup
  rw [inOrder_two]
  constructor
  · rintro ⟨h, h1 | ⟨k, n, hk, rfl⟩⟩
    · exact ⟨h, h1⟩
    · cases k <;> simp at hk
  · rintro ⟨h, h1⟩
    exact ⟨h, .inl h1⟩

/-- a later group starts with a `true` key -/
theorem later_true {α : Type} (key : α → Bool) (g h : List α) (hg : OneGroup [true, false] (g.map key))
    (hh : OneGroup [true, false] (h.map key))
    (hm : ∀ x, h.head? = some x → ¬ OneGroup [true, false] ((g ++ [x]).map key)) :
    ∃ x r, h = x :: r ∧ key x = true := by
  match h with
  | [] => simp [OneGroup] at hh
  | x :: r =>
    refine ⟨x, r, rfl, ?_⟩
    cases hk : key x with
    | true => rfl
    | false =>
      exfalso
      apply hm x rfl
      rw [oneGroup_tf] at hg ⊢
      obtain ⟨h1, m, n, h2⟩ := hg
      refine ⟨by simp, m, n + 1, ?_⟩
      rw [List.map_append, h2]
      simp [hk, List.replicate_succ']

/-- a group of keys where no two `true` are adjacent -/
theorem group_one_true {α : Type} (key : α → Bool) (g : List α) (hg : OneGroup [true, false] (g.map key))
    (hadj : ∀ a x y b, g = a ++ x :: y :: b → ¬ (key x = true ∧ key y = true)) :
    ∃ x r, g = x :: r ∧ ∀ y ∈ r, key y = false := by
  rw [oneGroup_tf] at hg
  obtain ⟨h1, m, n, h2⟩ := hg
  match g with
  | [] => simp at h1
  | x :: r =>
    refine ⟨x, r, rfl, ?_⟩
    match m with
    | 0 =>
      have : ∀ y ∈ x :: r, key y = false := by
        intro y hy
        have : key y ∈ (x :: r).map key := List.mem_map_of_mem hy
        rw [h2] at this
        simp at this
        exact this.2
      exact fun y hy => this y (by simp [hy])
    | 1 =>
      simp only [List.map_cons, List.replicate_one, List.singleton_append, List.cons.injEq] at h2
      intro y hy
      have : key y ∈ r.map key := List.mem_map_of_mem hy
      rw [h2.2] at this
      simp at this
      exact this.2
    | m + 2 =>
      exfalso
      match r with
      | [] => simp [List.replicate_succ] at h2
      | y :: r =>
        simp only [List.map_cons, List.replicate_succ, List.cons_append, List.cons.injEq] at h2
        exact hadj [] x y r rfl ⟨h2.1, h2.2.1⟩

theorem chunks_tail {α : Type} (key : α → Bool) (g : List α) (gs : List (List α))
    (hv : ∀ h ∈ g :: gs, OneGroup [true, false] (h.map key)) (hm : Maximal [true, false] key (g :: gs))
    (hadj : ∀ a x y b, (g :: gs).flatten = a ++ x :: y :: b → ¬ (key x = true ∧ key y = true)) :
    ∀ h ∈ gs, ∃ x r, h = x :: r ∧ key x = true ∧ ∀ y ∈ r, key y = false := by
  induction gs generalizing g with
  | nil => simp
  | cons h gs ih =>
    intro h' hh'
    rcases List.mem_cons.1 hh' with rfl | hmem
    · obtain ⟨x, r, hx, hk⟩ := later_true key g h' (hv g (by simp)) (hv h' (by simp)) hm.1
      obtain ⟨x', r', hx', hk'⟩ := group_one_true key h' (hv h' (by simp)) (by
        intro a x y b hab
        exact hadj (g ++ a) x y (b ++ gs.flatten) (by simp [hab]))
      rw [hx] at hx'
      obtain ⟨rfl, rfl⟩ := List.cons.inj hx'
      exact ⟨x, r, hx, hk, hk'⟩
    · refine ih h (fun k hk => hv k (by simp [List.mem_cons.1 hk])) hm.2 ?_ h' hmem
      intro a x y b hab
      exact hadj (g ++ a) x y b (by rw [List.flatten_cons, hab]; simp)

theorem chunks_head {α : Type} (key : α → Bool) (g : List α) (hv : OneGroup [true, false] (g.map key))
    (hh : ∀ x, g.head? = some x → key x = false) : ∀ x ∈ g, key x = false := by
  rw [oneGroup_tf] at hv
  obtain ⟨h1, m, n, h2⟩ := hv
  match g, m with
  | [], _ => simp
  | x :: r, m + 1 =>
    simp only [List.map_cons, List.replicate_succ, List.cons_append, List.cons.injEq] at h2
    have := hh x rfl
    simp [this] at h2
  | x :: r, 0 =>
    intro y hy
    have : key y ∈ (x :: r).map key := List.mem_map_of_mem hy
    rw [h2] at this
    simp at this
    exact this.2

theorem bind_ok {α β : Type} (x : Except PyErr α) (f : α → Except PyErr β) (b : β) :
    (x >>= f) = .ok b ↔ ∃ a, x = .ok a ∧ f a = .ok b := by
  cases x with
  | error e => constructor
               · intro h; cases h
               · rintro ⟨a, h, -⟩; cases h
  | ok a => exact ⟨fun h => ⟨a, rfl, h⟩, by rintro ⟨a', h, h'⟩; cases h; exact h'⟩

theorem pure_ok {α : Type} (a b : α) : (pure a : Except PyErr α) = .ok b ↔ a = b :=
  ⟨fun h => Except.ok.inj h, fun h => h ▸ rfl⟩

theorem TEvent_make_eq (i : Nat) (e : Event) (t : TEvent) (h : TEvent.make i e = .ok t) : t = ⟨i, e⟩ := by
  unfold TEvent.make at h
  cases h1 : wholeNumber DRAW_INDICATOR e.tag <;> cases h2 : wholeNumber DISCARD_INDICATOR e.tag <;>
    simp only [h1, h2, bind_ok, pure_ok] at h
  · exact h.symm
  · obtain ⟨_, _, h⟩ := h; exact h.symm
  · obtain ⟨_, _, h⟩ := h; exact h.symm
  · obtain ⟨_, _, _, _, h⟩ := h; exact h.symm

theorem makeEvents_eq (i : Nat) (es : List Event) (ts : List TEvent) (h : makeEvents i es = .ok ts) :
    ts = (es.zipIdx i).map (fun p => ⟨p.2, p.1⟩) := by
  induction es generalizing i ts with
  | nil => simp only [makeEvents, Except.ok.injEq] at h; subst h; rfl
  | cons e es ih =>
    simp only [makeEvents, bind_ok, pure_ok] at h
    obtain ⟨t, h1, l, h2, h3⟩ := h
    rw [← h3, ih _ _ h2, TEvent_make_eq _ _ _ h1]
    simp [List.zipIdx_cons]

theorem mapM_ok_map {α β : Type} (f : α → Except PyErr β) (g : β → α) (hf : ∀ a b, f a = .ok b → g b = a)
    (l : List α) (bs : List β) (h : l.mapM f = .ok bs) : bs.map g = l := by
  induction l generalizing bs with
  | nil => simp [pure, Except.pure] at h; subst h; rfl
  | cons a l ih =>
    rw [List.mapM_cons] at h
    cases h1 : f a with
    | error x => rw [h1] at h; cases h
    | ok b =>
      rw [h1] at h
      cases h2 : l.mapM f with
      | error x => rw [h2] at h; cases h
      | ok l' =>
        rw [h2] at h
        have := Except.ok.inj h
        subst this
        simp [hf _ _ h1, ih _ h2]

theorem TGame_make_events (l : List TEvent) (g : TGame) (h : TGame.make l = .ok g) : g.events = l := by
  unfold TGame.make at h
  cases l with
  | nil => cases h
  | cons init playing =>
    simp only at h
    split at h
    · cases h
    · simp only [bind_ok, pure_ok] at h
      obtain ⟨_, _, _, _, _, _, _, _, h⟩ := h
      rw [← h]

end Verif.Proofs
