import Verif.Py.Unquote
import Verif.Spec.Unquote

namespace Verif.Proofs
open Verif.Py Verif.Spec

theorem char_ofNat (c : Char) : Char.ofNat c.val.toNat = c := Char.ofNat_toNat c

/-- a whole character decodes to itself -/
theorem utf8_char (c : Char) (l : List Nat) :
    utf8Replace none ((String.utf8EncodeChar c).map UInt8.toNat ++ l) = c :: utf8Replace none l := by
  have hv := c.valid
  have hc := char_ofNat c
  have hb : c.val.toNat < 0xD800 ∨ (0xDFFF < c.val.toNat ∧ c.val.toNat < 0x110000) := hv
  unfold String.utf8EncodeChar
  generalize hx : c.val.toNat = v at *
  simp only
  by_cases h1 : v ≤ 127
  · rw [if_pos h1]
    simp only [List.map_cons, List.map_nil, List.cons_append, List.nil_append, UInt8.toNat_ofNat', utf8Replace, leadByte]
    rw [Nat.mod_eq_of_lt (by omega : v < 2 ^ 8), if_pos (by omega)]
    simp only [hc]
  rw [if_neg h1]
  by_cases h2 : v ≤ 2047
  · rw [if_pos h2]
    simp only [List.map_cons, List.map_nil, List.cons_append, List.nil_append, UInt8.toNat_ofNat', utf8Replace, leadByte]
    have e1 : (v / 64 % 32 + 192) % 2 ^ 8 = v / 64 + 192 := by omega
    have e2 : (v % 64 + 128) % 2 ^ 8 = v % 64 + 128 := by omega
    rw [e1, e2, if_neg (by omega), if_neg (by omega), if_pos (by omega)]
    simp only
    rw [if_pos (by omega), if_pos trivial, show (v / 64 + 192 - 192) * 64 + (v % 64 + 128 - 128) = v by omega, hc]
  rw [if_neg h2]
  by_cases h3 : v ≤ 65535
  · rw [if_pos h3]
    simp only [List.map_cons, List.map_nil, List.cons_append, List.nil_append, UInt8.toNat_ofNat', utf8Replace, leadByte]
    have e1 : (v / 4096 % 16 + 224) % 2 ^ 8 = v / 4096 + 224 := by omega
    have e2 : (v / 64 % 64 + 128) % 2 ^ 8 = v / 64 % 64 + 128 := by omega
    have e3 : (v % 64 + 128) % 2 ^ 8 = v % 64 + 128 := by omega
    rw [e1, e2, e3, if_neg (by omega), if_neg (by omega), if_neg (by omega)]
    by_cases g0 : v / 4096 = 0
    · rw [if_pos (by omega)]
      simp only
      rw [if_pos (by omega), if_neg (by omega), if_pos (by omega), if_pos trivial,
        show (0 * 64 + (v / 64 % 64 + 128 - 128)) * 64 + (v % 64 + 128 - 128) = v by omega, hc]
    · rw [if_neg (by omega)]
      by_cases gd : v / 4096 = 13
      · rw [if_pos (by omega)]
        simp only
        rw [if_pos (by omega), if_neg (by omega), if_pos (by omega), if_pos trivial,
          show (13 * 64 + (v / 64 % 64 + 128 - 128)) * 64 + (v % 64 + 128 - 128) = v by omega, hc]
      · rw [if_neg (by omega), if_pos (by omega)]
        simp only
        rw [if_pos (by omega), if_neg (by omega), if_pos (by omega), if_pos trivial,
          show ((v / 4096 + 224 - 224) * 64 + (v / 64 % 64 + 128 - 128)) * 64 + (v % 64 + 128 - 128) = v by omega, hc]
  · rw [if_neg h3]
    simp only [List.map_cons, List.map_nil, List.cons_append, List.nil_append, UInt8.toNat_ofNat', utf8Replace, leadByte]
    have e1 : (v / 262144 % 8 + 240) % 2 ^ 8 = v / 262144 + 240 := by omega
    have e0 : (v / 4096 % 64 + 128) % 2 ^ 8 = v / 4096 % 64 + 128 := by omega
    have e2 : (v / 64 % 64 + 128) % 2 ^ 8 = v / 64 % 64 + 128 := by omega
    have e3 : (v % 64 + 128) % 2 ^ 8 = v % 64 + 128 := by omega
    rw [e1, e0, e2, e3, if_neg (by omega), if_neg (by omega), if_neg (by omega), if_neg (by omega), if_neg (by omega),
      if_neg (by omega)]
    by_cases g0 : v / 262144 = 0
    · rw [if_pos (by omega)]
      simp only
      rw [if_pos (by omega), if_neg (by omega), if_pos (by omega), if_neg (by omega), if_pos (by omega), if_pos trivial,
        show ((0 * 64 + (v / 4096 % 64 + 128 - 128)) * 64 + (v / 64 % 64 + 128 - 128)) * 64 + (v % 64 + 128 - 128) = v by omega, hc]
    · rw [if_neg (by omega)]
      by_cases g4 : v / 262144 = 4
      · rw [if_neg (by omega), if_pos (by omega)]
        simp only
        rw [if_pos (by omega), if_neg (by omega), if_pos (by omega), if_neg (by omega), if_pos (by omega), if_pos trivial,
          show ((4 * 64 + (v / 4096 % 64 + 128 - 128)) * 64 + (v / 64 % 64 + 128 - 128)) * 64 + (v % 64 + 128 - 128) = v by omega, hc]
      · rw [if_pos (by omega)]
        simp only
        rw [if_pos (by omega), if_neg (by omega), if_pos (by omega), if_neg (by omega), if_pos (by omega), if_pos trivial,
          show (((v / 262144 + 240 - 240) * 64 + (v / 4096 % 64 + 128 - 128)) * 64 + (v / 64 % 64 + 128 - 128)) * 64 +
            (v % 64 + 128 - 128) = v by omega, hc]

theorem utf8_ascii {c : Char} (h : c.toNat < 128) (l : List Nat) :
    utf8Replace none (c.toNat :: l) = c :: utf8Replace none l := by
  simp only [utf8Replace, leadByte]
  rw [if_pos h]
  simp only [Char.ofNat_toNat]

/-! ### Percent signs -/

theorem hex_value_table : ∀ n : Fin 16, ∀ c ∈ [("0123456789abcdef".toList)[n.val]?, ("0123456789ABCDEF".toList)[n.val]?],
    ∀ d ∈ c, hexValue d = some n.val ∧ d.toNat < 128 := by decide +kernel

theorem hex_lt {n : Nat} {c : Char} (h : HexDigit n c) : n < 16 := by
  rcases h with h | h
  · have := (List.getElem?_eq_some_iff.1 h).1
    simpa using this
  · have := (List.getElem?_eq_some_iff.1 h).1
    simpa using this

theorem hex_value {n : Nat} {c : Char} (h : HexDigit n c) : hexValue c = some n ∧ c.toNat < 128 := by
  have hn := hex_lt h
  rcases h with h | h
  · exact hex_value_table ⟨n, hn⟩ _ (by simp) c h
  · exact hex_value_table ⟨n, hn⟩ _ (List.mem_cons_of_mem _ (List.mem_singleton.2 rfl)) c h

theorem hexValue_digit {c : Char} {x : Nat} (h : hexValue c = some x) : HexDigit x c := by
  have lift : ∀ n : Fin 128, ∀ y ∈ hexValue (Char.ofNat n.val),
      ("0123456789abcdef".toList)[y]? = some (Char.ofNat n.val) ∨ ("0123456789ABCDEF".toList)[y]? = some (Char.ofNat n.val) := by
    decide +kernel
  have hl : c.toNat < 128 := by
    unfold hexValue at h
    have e1 : '9'.toNat = 57 := rfl
    have e2 : 'f'.toNat = 102 := rfl
    have e3 : 'F'.toNat = 70 := rfl
    rw [e1, e2, e3] at h
    split at h
    · omega
    split at h
    · omega
    split at h
    · omega
    · cases h
  have := lift ⟨c.toNat, hl⟩ x
  simp only [Char.ofNat_toNat] at this
  exact this h

theorem percentBytes_plain {c : Char} (h : c ≠ '%') (s : Str) : percentBytes (c :: s) = c.toNat :: percentBytes s := by
  match s with
  | [] => rfl
  | [a] => rfl
  | a :: b :: s => simp only [percentBytes, if_neg h]

theorem percentBytes_stray {s : Str} (h : ∀ a b r m n, s = a :: b :: r → ¬ (HexDigit m a ∧ HexDigit n b)) :
    percentBytes ('%' :: s) = '%'.toNat :: percentBytes s := by
  match s with
  | [] => rfl
  | [a] => rfl
  | a :: b :: s =>
    simp only [percentBytes, if_pos]
    split
    · rename_i x y hx hy
      exact absurd ⟨hexValue_digit hx, hexValue_digit hy⟩ (h a b s x y rfl)
    · rfl

theorem percentBytes_coded {bs : List UInt8} {e : Str} (h : WritesBytes bs e) (s : Str) :
    percentBytes (e ++ s) = bs.map UInt8.toNat ++ percentBytes s := by
  induction h with
  | nil => rfl
  | @cons b bs h l t h1 h2 _ ih =>
    simp only [List.cons_append, percentBytes, if_true, (hex_value h1).1, (hex_value h2).1, ih, List.map_cons]
    rw [show 16 * (b.toNat / 16) + b.toNat % 16 = b.toNat by omega]

theorem coded_ascii {bs : List UInt8} {e : Str} (h : WritesBytes bs e) : ∀ c ∈ e, c.toNat < 128 := by
  induction h with
  | nil => simp
  | cons h1 h2 _ ih =>
    intro c hc
    simp only [List.mem_cons] at hc
    rcases hc with rfl | rfl | rfl | hc
    · decide
    · exact (hex_value h1).2
    · exact (hex_value h2).2
    · exact ih c hc

/-! ### Runs of ASCII characters -/

def ascii (c : Char) : Bool := decide (c.toNat < 128)

theorem unquoteRuns_eq (t : Str) : ∀ run, unquoteRuns run t =
    utf8Replace none (percentBytes (run ++ t.takeWhile ascii)) ++
      (match t.dropWhile ascii with | [] => [] | c :: r => c :: unquoteRuns [] r) := by
  induction t with
  | nil => intro run; simp [unquoteRuns]
  | cons c t ih =>
    intro run
    by_cases h : c.toNat < 128
    · have ha : ascii c = true := by simpa [ascii] using h
      rw [unquoteRuns, if_pos h, ih, List.takeWhile_cons_of_pos ha, List.dropWhile_cons_of_pos ha]
      simp
    · have ha : ¬ ascii c = true := by simpa [ascii] using h
      rw [unquoteRuns, if_neg h, List.takeWhile_cons_of_neg ha, List.dropWhile_cons_of_neg ha]
      simp

theorem takeWhile_ascii_append {e : Str} (h : ∀ c ∈ e, c.toNat < 128) (t : Str) :
    (e ++ t).takeWhile ascii = e ++ t.takeWhile ascii ∧ (e ++ t).dropWhile ascii = t.dropWhile ascii := by
  induction e with
  | nil => exact ⟨rfl, rfl⟩
  | cons c e ih =>
    have ha : ascii c = true := by simpa [ascii] using h c (by simp)
    obtain ⟨i1, i2⟩ := ih (fun x hx => h x (by simp [hx]))
    simp only [List.cons_append]
    rw [List.takeWhile_cons_of_pos ha, List.dropWhile_cons_of_pos ha, i1, i2]
    exact ⟨rfl, rfl⟩

theorem first_run {s t : Str} (h : PercentEncodes s t) :
    ∃ s1 s2, s = s1 ++ s2 ∧ utf8Replace none (percentBytes (t.takeWhile ascii)) = s1 ∧
      PercentEncodes s2 (t.dropWhile ascii) := by
  induction h with
  | nil => exact ⟨[], [], rfl, rfl, .nil⟩
  | @plain c s t hc h ih =>
    by_cases hl : c.toNat < 128
    · have ha : ascii c = true := by simpa [ascii] using hl
      obtain ⟨s1, s2, rfl, h1, h2⟩ := ih
      refine ⟨c :: s1, s2, rfl, ?_, ?_⟩
      · rw [List.takeWhile_cons_of_pos ha, percentBytes_plain hc, utf8_ascii hl, h1]
      · rw [List.dropWhile_cons_of_pos ha]; exact h2
    · have ha : ¬ ascii c = true := by simpa [ascii] using hl
      refine ⟨[], c :: s, rfl, ?_, ?_⟩
      · rw [List.takeWhile_cons_of_neg ha]; rfl
      · rw [List.dropWhile_cons_of_neg ha]; exact .plain hc h
  | @coded c e s t he h ih =>
    obtain ⟨s1, s2, rfl, h1, h2⟩ := ih
    obtain ⟨a1, a2⟩ := takeWhile_ascii_append (coded_ascii he) t
    refine ⟨c :: s1, s2, rfl, ?_, ?_⟩
    · rw [a1, percentBytes_coded he, utf8_char, h1]
    · rw [a2]; exact h2
  | @stray s t hn h ih =>
    obtain ⟨s1, s2, rfl, h1, h2⟩ := ih
    have ha : ascii '%' = true := by decide
    refine ⟨'%' :: s1, s2, rfl, ?_, ?_⟩
    · rw [List.takeWhile_cons_of_pos ha, percentBytes_stray, utf8_ascii (by decide), h1]
      intro a b r m n hx
      have ht : t = a :: b :: (r ++ t.dropWhile ascii) := by
        have := (List.takeWhile_append_dropWhile (p := ascii) (l := t)).symm
        rw [hx] at this
        simpa using this
      exact hn a b _ m n ht
    · rw [List.dropWhile_cons_of_pos ha]; exact h2

theorem unquoteRuns_encodes (n : Nat) : ∀ s t : Str, t.length ≤ n → PercentEncodes s t → unquoteRuns [] t = s := by
  induction n with
  | zero =>
    intro s t hl h
    have : t = [] := List.eq_nil_of_length_eq_zero (by omega)
    subst this
    generalize hx : ([] : Str) = t at h
    cases h with
    | nil => rfl
    | plain => cases hx
    | @coded c e s t he h =>
      have he' : e = [] := by cases e with | nil => rfl | cons => cases hx
      subst he'
      generalize hy : String.utf8EncodeChar c = bs at he
      cases he
      exact absurd hy String.utf8EncodeChar_ne_nil
    | stray => cases hx
  | succ n ih =>
    intro s t hl h
    obtain ⟨s1, s2, rfl, h1, h2⟩ := first_run h
    rw [unquoteRuns_eq, List.nil_append, h1]
    congr 1
    have hlen : (t.dropWhile ascii).length ≤ t.length := (List.dropWhile_sublist ascii).length_le
    have hd : ∀ c r, t.dropWhile ascii = c :: r → ¬ c.toNat < 128 := by
      intro c r hr hc
      have := List.head?_dropWhile_not ascii t
      rw [hr] at this
      simp only [List.head?_cons] at this
      simp [ascii] at this
      omega
    generalize t.dropWhile ascii = d at h2 hlen hd
    cases h2 with
    | nil => rfl
    | @plain c s t hc h' =>
      simp only [List.cons.injEq, true_and]
      exact ih _ _ (by simp at hlen; omega) h'
    | @coded c e s t he h =>
      exfalso
      generalize hy : String.utf8EncodeChar c = bs at he
      cases he with
      | nil => exact absurd hy String.utf8EncodeChar_ne_nil
      | cons a b c => exact absurd (by decide) (hd _ _ rfl)
    | stray a b => exact absurd (by decide) (hd _ _ rfl)

theorem no_percent {s t : Str} (h : PercentEncodes s t) (hp : '%' ∉ t) : s = t := by
  induction h with
  | nil => rfl
  | plain hc _ ih => rw [ih (by simp at hp; exact hp.2)]
  | @coded c e s t he h ih =>
    exfalso
    generalize hy : String.utf8EncodeChar c = bs at he
    cases he with
    | nil => exact absurd hy String.utf8EncodeChar_ne_nil
    | cons a b c => simp at hp
  | stray => simp at hp

theorem unquote_encodes {s t : Str} (h : PercentEncodes s t) : unquote t = s := by
  unfold unquote
  split
  · exact unquoteRuns_encodes _ _ _ (Nat.le_refl _) h
  · rename_i hp
    exact (no_percent h hp).symm

end Verif.Proofs
