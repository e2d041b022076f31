import Verif.Spec.Bits

namespace Verif.Proofs
open Verif.Py Verif.Model Verif.Spec

/-- the fields from the least significant one on, starting at bit `off` -/
def lay (v : Int) : Nat → List Nat → List Int
  | _, [] => []
  | off, w :: ws => v / 2 ^ off % 2 ^ w :: lay v (off + w) ws

theorem unpackMsb_append (a b : List Nat) (rest : Nat) (v : Int) :
    unpackMsb (a ++ b) rest v = unpackMsb a rest v ++ unpackMsb b (rest - a.sum) v := by
  induction a generalizing rest with
  | nil => simp [unpackMsb]
  | cons w a ih => simp [unpackMsb, ih, Nat.sub_sub]

theorem unpackMsb_reverse (ws : List Nat) (off : Nat) (v : Int) :
    unpackMsb ws.reverse (off + ws.sum) v = (lay v off ws).reverse := by
  induction ws generalizing off with
  | nil => simp [unpackMsb, lay]
  | cons w ws ih =>
    simp only [List.reverse_cons, lay, unpackMsb_append]
    have h : off + (w :: ws).sum = (off + w) + ws.sum := by simp; omega
    rw [h, ih]
    simp [unpackMsb]

theorem lay_length (v : Int) (off : Nat) (ws : List Nat) : (lay v off ws).length = ws.length := by
  induction ws generalizing off with
  | nil => rfl
  | cons w ws ih => simp [lay, ih]

theorem lay_get (v : Int) (off : Nat) (ws : List Nat) (j : Nat) (h : j < ws.length) :
    (lay v off ws)[j]? = some (v / 2 ^ (off + (ws.take j).sum) % 2 ^ ws[j]) := by
  induction ws generalizing off j with
  | nil => simp at h
  | cons w ws ih =>
    cases j with
    | zero => simp [lay]
    | succ j =>
      simp only [lay, List.getElem?_cons_succ, List.getElem_cons_succ, List.take_succ_cons, List.sum_cons]
      rw [ih _ _ (by simpa using h), Nat.add_assoc]

theorem packMsb_append (l : List (Nat × Int)) (w : Nat) (x acc : Int) :
    packMsb (l ++ [(w, x)]) acc = packMsb l acc * 2 ^ w + x := by
  induction l generalizing acc with
  | nil => simp [packMsb]
  | cons p l ih => obtain ⟨a, b⟩ := p; simp [packMsb, ih]

theorem emod_mul_split (x a b : Int) (ha : 0 < a) (hb : 0 < b) :
    x / a % b * a + x % a = x % (a * b) := by
  have h1 := Int.mul_ediv_add_emod x a
  have h2 := Int.mul_ediv_add_emod (x / a) b
  have h3 := Int.emod_nonneg x (show a ≠ 0 by omega)
  have h4 := Int.emod_lt_of_pos x ha
  have h5 := Int.emod_nonneg (x / a) (show b ≠ 0 by omega)
  have h6 := Int.emod_lt_of_pos (x / a) hb
  have key : x = (x / a % b * a + x % a) + (a * b) * (x / a / b) := by
    have e : a * (x / a) = a * b * (x / a / b) + x / a % b * a := by
      rw [Int.mul_assoc, Int.mul_comm (x / a % b) a, ← Int.mul_add, h2]
    omega
  have hlt : x / a % b * a + x % a < a * b := by
    have : (x / a % b) * a ≤ (b - 1) * a := Int.mul_le_mul_of_nonneg_right (by omega) (by omega)
    rw [Int.sub_mul, Int.mul_comm b a] at this
    omega
  have hge : 0 ≤ x / a % b * a + x % a := by
    have := Int.mul_nonneg h5 (Int.le_of_lt ha); omega
  conv => rhs; rw [key]
  rw [Int.add_mul_emod_self_left, Int.emod_eq_of_lt hge hlt]

theorem pack_lay (v : Int) (ws : List Nat) (off : Nat) :
    packMsb (ws.reverse.zip (lay v off ws).reverse) 0 = v / 2 ^ off % 2 ^ ws.sum := by
  induction ws generalizing off with
  | nil => simp [packMsb]
  | cons w ws ih =>
    simp only [List.reverse_cons, lay]
    rw [List.zip_append (by simp [lay_length])]
    simp only [List.zip_cons_cons, List.zip_nil_left, packMsb_append, ih]
    have p1 : (0 : Int) < 2 ^ w := Int.pow_pos (by decide)
    have p2 : (0 : Int) < 2 ^ ws.sum := Int.pow_pos (by decide)
    have p3 : (0 : Int) ≤ 2 ^ off := Int.le_of_lt (Int.pow_pos (by decide))
    have := emod_mul_split (v / 2 ^ off) (2 ^ w) (2 ^ ws.sum) p1 p2
    rw [List.sum_cons, Int.pow_add 2 off, Int.pow_add 2 w, ← this, Int.ediv_ediv_of_nonneg p3]

theorem unpackWith_eq (desc : List Field) (hw : totalWidth desc = 16) (v : Int) (h0 : 0 ≤ v) (h1 : v ≤ 65535) :
    unpackWith desc v =
      .ok ((desc.map (fun f => f.name)).zip (lay v 0 (desc.map (fun f => f.width)))).reverse := by
  unfold unpackWith toBitBytes
  rw [if_pos ⟨h0, h1⟩]
  simp only [List.map_reverse]
  have := unpackMsb_reverse (desc.map (fun f => f.width)) 0 v
  unfold totalWidth at hw
  rw [hw] at this
  simp only [Nat.zero_add] at this
  rw [this]
  congr 1
  have : ∀ (a : List Str) (b : List Int), a.length = b.length → a.reverse.zip b.reverse = (a.zip b).reverse := by
    intro a b h
    rw [List.zip_eq_zipWith, List.zip_eq_zipWith, List.reverse_zipWith h]
  exact this _ _ (by simp [lay_length])

end Verif.Proofs
