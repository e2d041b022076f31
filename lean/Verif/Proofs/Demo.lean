import Verif.Model.Demo
import Verif.Proofs.PageNumber
import Verif.Proofs.Notation
import Verif.Proofs.WinRate
import Verif.Proofs.Checker

/-! The numbers and the order of the win-rate report; hands typed as text. -/
namespace Verif.Proofs
open Verif.Py Verif.Model Verif.Spec

theorem digitTile_real {s : Suit} {c : Char} {t : Tile} (h : digitTile s c = some t) (hz : s = .z → c ∉ ['0', '8', '9']) : RealTile t := by
  unfold digitTile at h
  split at h <;> first
    | (cases h; done)
    | (cases h
       cases s
       · decide
       · decide
       · decide
       · first
         | decide
         | exact absurd (by decide) (hz rfl))

theorem tileAt_real {text : List Char} {t : Tile} (h : tileAt text = some t) : RealTile t := by
  unfold tileAt at h
  split at h
  · cases h
  · rename_i d r
    split at h
    · exact digitTile_real h (by simp)
    · exact digitTile_real h (by simp)
    · exact digitTile_real h (by simp)
    · split at h
      · rename_i _ _ _ ha
        refine digitTile_real h (fun _ => ?_)
        by_cases hd : isDec d = true
        · rw [List.takeWhile_cons, hd] at ha
          simp only [if_true, List.all_cons, Bool.and_eq_true, decide_eq_true_eq] at ha
          exact ha.1
        · intro hm
          apply hd
          unfold isDec
          simp only [List.mem_cons, List.not_mem_nil, or_false] at hm
          rcases hm with rfl | rfl | rfl <;> decide
      · cases h
    · cases h

theorem written_real (text : List Char) : ∀ t ∈ written text, RealTile t := by
  induction text with
  | nil => simp [written]
  | cons c s ih =>
    intro t ht
    rw [written, List.mem_append] at ht
    rcases ht with h | h
    · exact tileAt_real (Option.mem_toList.1 h)
    · exact ih t h

theorem typed_ok (text : Str) : HandOK (tileSetFromString text) := by
  unfold tileSetFromString
  exact HandOK.reSort (HandOK_ofIter (by rw [tilesFromString_eq]; exact written_real text))

theorem typed_content (text : Str) (k : Kind) : content (tileSetFromString text) k = (((written text).map Tile.view).count k : Int) := by
  unfold tileSetFromString
  rw [content_reSort (HandOK_ofIter (by rw [tilesFromString_eq]; exact written_real text)), tilesFromString_eq]
  exact get_ofIter' _ k

theorem typed_pos (text : Str) : ∀ e ∈ tileSetFromString text, 0 < e.2 := by
  intro e he
  have hh := typed_ok text
  have hk : e.1.view ∈ Counter.keys (Counter.ofIter (tilesFromString text) : TileSet) := by
    refine Counter.mem_keys.2 ⟨e, ?_, rfl⟩
    exact (reSort_perm _).mem_iff.1 he
  unfold Counter.ofIter at hk
  rw [Counter.mem_keys_foldl_set (tilesFromString text) (fun a => a) (fun c a => Counter.get c (view a) + 1)] at hk
  rcases hk with hk | ⟨t, ht, e1⟩
  · simp [Counter.keys] at hk
  · have h1 := Counter.get_of_mem hh.1 he
    have h2 := typed_content text e.1.view
    unfold content at h2
    have h3 : 0 < ((written text).map Tile.view).count e.1.view := by
      rw [List.count_pos_iff, e1, ← tilesFromString_eq]
      exact List.mem_map_of_mem ht
    have h4 : (view e.1 : Kind) = e.1.view := rfl
    rw [h4] at h1
    omega

theorem typed_held (text : Str) (k : Kind) : k ∈ heldList (tileSetFromString text) ↔ k ∈ (written text).map Tile.view := by
  have hh := typed_ok text
  have hc := typed_content text k
  unfold content at hc
  constructor
  · intro h
    obtain ⟨e, he, rfl⟩ := List.mem_map.1 h
    have h1 := Counter.get_of_mem hh.1 he
    have h2 := typed_pos text e he
    have h4 : (view e.1 : Kind) = e.1.view := rfl
    rw [h4] at h1
    rw [← List.count_pos_iff]
    omega
  · intro h
    rw [← List.count_pos_iff] at h
    have : k ∈ Counter.keys (tileSetFromString text) := Counter.mem_keys_of_get_ne (by omega)
    obtain ⟨e, he, e1⟩ := Counter.mem_keys.1 this
    exact List.mem_map.2 ⟨e, he, e1⟩

theorem typed_len (text : Str) : TileSet.len (tileSetFromString text) = (written text).length := by
  have hh := typed_ok text
  show Counter.total _ = _
  rw [total_eq_sumK hh.1 hh.2.1, ← total_ofIter_real (written_real text)]
  apply sumK_congr
  intro k _
  exact typed_content text k

theorem floatText_writes (d : Nat) (x : ℚ) : ∃ a b q, floatText d x = a ++ '.' :: b ∧ b.length = d ∧ WritesNum (floatText d x) q ∧
    |q - x| ≤ 1 / (2 * 10 ^ d) := by
  have near := (roundHalfEven_nearest (x.num.natAbs * 10 ^ d) x.den x.den_pos).1
  unfold floatText
  simp only
  generalize roundHalfEven (x.num.natAbs * 10 ^ d) x.den = m at near ⊢
  have hd : Decimal (natDigits (m / 10 ^ d) ++ '.' :: lastDigits d m) ((m : ℚ) / 10 ^ d) := by
    refine Or.inr ⟨_, _, rfl, ⟨?_, ?_⟩, ?_⟩
    · intro e
      exact natDigits_ne_nil _ (List.append_eq_nil_iff.1 e).1
    · intro c hc
      rcases List.mem_append.1 hc with h | h
      · exact (decimal_natDigits _).1.2 c h
      · exact lastDigits_digits d m c h
    · rw [decimal_fixed, lastDigits_length]
  have pd : (0 : ℚ) < 10 ^ d := by positivity
  have e : (x.num : ℚ) / x.den = x := Rat.num_div_den _
  refine ⟨(if x.num < 0 then ['-'] else []) ++ natDigits (m / 10 ^ d), lastDigits d m, (if x.num < 0 then -1 else 1) * (m : ℚ) / 10 ^ d,
    rfl, lastDigits_length _ _, ?_, ?_⟩
  · by_cases h : x.num < 0
    · simp only [if_pos h]
      refine Or.inr (Or.inr ⟨_, rfl, ?_⟩)
      have : -(-1 * (m : ℚ) / 10 ^ d) = (m : ℚ) / 10 ^ d := by ring
      rw [this]
      exact hd
    · simp only [if_neg h]
      refine Or.inl ?_
      rw [one_mul]
      exact hd
  · have hs : |(if x.num < 0 then (-1 : ℚ) else 1)| = 1 := by split <;> simp
    have hx : (if x.num < 0 then (-1 : ℚ) else 1) * ((x.num.natAbs : ℕ) : ℚ) / x.den = x := by
      by_cases h : x.num < 0
      · rw [if_pos h]
        have : ((x.num.natAbs : ℕ) : ℚ) = -(x.num : ℚ) := by
          have : ((x.num.natAbs : ℕ) : ℤ) = -x.num := by omega
          rw [← Int.cast_natCast, this, Int.cast_neg]
        rw [this, neg_one_mul, neg_neg]
        exact e
      · rw [if_neg h]
        have : ((x.num.natAbs : ℕ) : ℚ) = (x.num : ℚ) := by
          have : ((x.num.natAbs : ℕ) : ℤ) = x.num := by omega
          rw [← Int.cast_natCast, this]
        rw [this, one_mul]
        exact e
    have key : (if x.num < 0 then (-1 : ℚ) else 1) * (m : ℚ) / 10 ^ d - x =
        (if x.num < 0 then (-1 : ℚ) else 1) * ((m : ℚ) - ((x.num.natAbs * 10 ^ d : ℕ) : ℚ) / x.den) / 10 ^ d := by
      have hden : (x.den : ℚ) ≠ 0 := by exact_mod_cast x.den_ne_zero
      have e2 : (if x.num < 0 then (-1 : ℚ) else 1) * (m : ℚ) / 10 ^ d - x =
          (if x.num < 0 then (-1 : ℚ) else 1) * (m : ℚ) / 10 ^ d - (if x.num < 0 then (-1 : ℚ) else 1) * ((x.num.natAbs : ℕ) : ℚ) / x.den := by
        rw [hx]
      rw [e2]
      push_cast
      generalize (if x.num < 0 then (-1 : ℚ) else 1) = s
      generalize ((x.num.natAbs : ℕ) : ℚ) = y
      field_simp
    rw [key, abs_div, abs_mul, hs, one_mul, abs_of_pos pd, div_le_div_iff₀ pd (by positivity)]
    calc _ ≤ 1 / 2 * (2 * (10 : ℚ) ^ d) := mul_le_mul_of_nonneg_right near (by positivity)
      _ = 1 * 10 ^ d := by ring

theorem askHand_bad {bad : List Str} (hb : ∀ l ∈ bad, (written l).length ≠ 14) (rest : List Str) :
    askHand (bad ++ rest) = (bad.map (fun l => wrongHandText (tileSetFromString l)) ++ (askHand rest).1, (askHand rest).2) := by
  induction bad with
  | nil => rfl
  | cons l bad ih =>
    rw [List.cons_append, askHand]
    have : TileSet.len (tileSetFromString l) ≠ 14 := by
      rw [typed_len]
      have := hb l (by simp)
      omega
    simp only [if_pos this, ih (fun x hx => hb x (by simp [hx])), List.map_cons, List.cons_append]

end Verif.Proofs
