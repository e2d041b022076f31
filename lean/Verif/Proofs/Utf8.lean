import Verif.Proofs.Unquote
import Mathlib.Tactic.Tauto

namespace Verif.Proofs
open Verif.Py Verif.Spec

/-- the values of characters -/
def ValidValue (v : Nat) : Prop := v < 0xD800 ∨ (0xDFFF < v ∧ v < 0x110000)

/-- the bytes of a value -/
def valueBytes (v : Nat) : List Nat :=
  if v ≤ 127 then [v]
  else if v ≤ 2047 then [v / 64 + 192, v % 64 + 128]
  else if v ≤ 65535 then [v / 4096 + 224, v / 64 % 64 + 128, v % 64 + 128]
  else [v / 262144 + 240, v / 4096 % 64 + 128, v / 64 % 64 + 128, v % 64 + 128]

theorem utf8Bytes_eq (c : Char) : utf8Bytes c = valueBytes c.val.toNat := by
  have hv : ValidValue c.val.toNat := c.valid
  unfold utf8Bytes String.utf8EncodeChar valueBytes
  unfold ValidValue at hv
  generalize c.val.toNat = v at *
  simp only
  split
  · simp only [List.map_cons, List.map_nil, UInt8.toNat_ofNat', List.cons.injEq, and_true]
    omega
  split
  · simp only [List.map_cons, List.map_nil, UInt8.toNat_ofNat', List.cons.injEq, and_true]
    omega
  split
  · simp only [List.map_cons, List.map_nil, UInt8.toNat_ofNat', List.cons.injEq, and_true]
    omega
  · simp only [List.map_cons, List.map_nil, UInt8.toNat_ofNat', List.cons.injEq, and_true]
    omega

theorem utf8Bytes_ofNat {v : Nat} (h : ValidValue v) : utf8Bytes (Char.ofNat v) = valueBytes v := by
  have hv : v.isValidChar := h
  have : (Char.ofNat v).val.toNat = v := by
    unfold Char.ofNat
    rw [dif_pos hv]
    rfl
  rw [utf8Bytes_eq, this]

/-- a character of which the bytes `p` have been read -/
inductive Pending : List Nat → Nat × Nat × Nat × Nat → Prop
  | one {b x n lo hi : Nat} : leadByte b = .more x n lo hi → Pending [b] (x, n, lo, hi)
  | two {a b x n lo hi y m lo' hi' : Nat} : leadByte a = .more x n lo hi → n ≠ 1 → lo ≤ b → b ≤ hi →
      y = x * 64 + (b - 0x80) → m = n - 1 → lo' = 0x80 → hi' = 0xBF → Pending [a, b] (y, m, lo', hi')
  | three {a b d x n lo hi y m lo' hi' : Nat} : leadByte a = .more x n lo hi → n ≠ 1 → n ≠ 2 → lo ≤ b → b ≤ hi →
      0x80 ≤ d → d ≤ 0xBF → y = (x * 64 + (b - 0x80)) * 64 + (d - 0x80) → m = n - 2 → lo' = 0x80 → hi' = 0xBF →
      Pending [a, b, d] (y, m, lo', hi')

theorem lead_more {b x n lo hi : Nat} (h : leadByte b = .more x n lo hi) :
    (0xC2 ≤ b ∧ b < 0xE0 ∧ x = b - 0xC0 ∧ n = 1 ∧ lo = 0x80 ∧ hi = 0xBF) ∨
    (b = 0xE0 ∧ x = 0 ∧ n = 2 ∧ lo = 0xA0 ∧ hi = 0xBF) ∨
    (b = 0xED ∧ x = 0xD ∧ n = 2 ∧ lo = 0x80 ∧ hi = 0x9F) ∨
    (0xE0 < b ∧ b < 0xF0 ∧ b ≠ 0xED ∧ x = b - 0xE0 ∧ n = 2 ∧ lo = 0x80 ∧ hi = 0xBF) ∨
    (b = 0xF0 ∧ x = 0 ∧ n = 3 ∧ lo = 0x90 ∧ hi = 0xBF) ∨
    (0xF0 < b ∧ b < 0xF4 ∧ x = b - 0xF0 ∧ n = 3 ∧ lo = 0x80 ∧ hi = 0xBF) ∨
    (b = 0xF4 ∧ x = 4 ∧ n = 3 ∧ lo = 0x80 ∧ hi = 0x8F) := by
  unfold leadByte at h
  repeat' split at h
  all_goals try (simp only [reduceCtorEq] at h; done)
  all_goals simp only [Lead.more.injEq] at h
  all_goals first
    | (refine Or.inl ?_; omega)
    | (refine Or.inr (Or.inl ?_); omega)
    | (refine Or.inr (Or.inr (Or.inl ?_)); omega)
    | (refine Or.inr (Or.inr (Or.inr (Or.inl ?_))); omega)
    | (refine Or.inr (Or.inr (Or.inr (Or.inr (Or.inl ?_)))); omega)
    | (refine Or.inr (Or.inr (Or.inr (Or.inr (Or.inr (Or.inl ?_))))); omega)
    | (refine Or.inr (Or.inr (Or.inr (Or.inr (Or.inr (Or.inr ?_))))); omega)

theorem lead_char {b : Nat} {c : Char} (h : leadByte b = .char c) : b < 0x80 ∧ c = Char.ofNat b := by
  unfold leadByte at h
  repeat' split at h
  all_goals first | (simp only [reduceCtorEq] at h; done) | (simp only [Lead.char.injEq] at h; exact ⟨by omega, h.symm⟩)

theorem lead_bad {b : Nat} (h : leadByte b = .bad) : (0x80 ≤ b ∧ b < 0xC2) ∨ 0xF4 < b := by
  unfold leadByte at h
  repeat' split at h
  all_goals first | (simp only [reduceCtorEq] at h; done) | omega

theorem valid (c : Char) : ValidValue c.val.toNat := c.valid

/-- a byte that does not go on has no character -/
theorem pending_stop {p : List Nat} {x n lo hi b : Nat} (h : Pending p (x, n, lo, hi)) (c : Char) (hc : p ++ [b] <+: utf8Bytes c) :
    lo ≤ b ∧ b ≤ hi := by
  rw [utf8Bytes_eq] at hc
  have hv := valid c
  unfold ValidValue at hv
  generalize c.val.toNat = v at *
  unfold valueBytes at hc
  cases h with
  | one h =>
    have := lead_more h
    repeat' split at hc
    all_goals simp only [List.cons_append, List.nil_append, List.cons_prefix_cons, List.nil_prefix, List.prefix_nil, and_true,
      reduceCtorEq, and_false] at hc
    all_goals omega
  | two h =>
    have := lead_more h
    repeat' split at hc
    all_goals simp only [List.cons_append, List.nil_append, List.cons_prefix_cons, List.nil_prefix, List.prefix_nil, and_true,
      reduceCtorEq, and_false] at hc
    all_goals omega
  | three h =>
    have := lead_more h
    repeat' split at hc
    all_goals simp only [List.cons_append, List.nil_append, List.cons_prefix_cons, List.nil_prefix, List.prefix_nil, and_true,
      reduceCtorEq, and_false] at hc
    all_goals omega

/-- a pending character is not a whole one -/
theorem pending_part {p : List Nat} {x n lo hi : Nat} (h : Pending p (x, n, lo, hi)) (c : Char) : ¬ utf8Bytes c <+: p := by
  intro hc
  rw [utf8Bytes_eq] at hc
  have hv := valid c
  unfold ValidValue at hv
  generalize c.val.toNat = v at *
  unfold valueBytes at hc
  cases h with
  | one h =>
    have := lead_more h
    repeat' split at hc
    all_goals simp only [List.cons_append, List.nil_append, List.cons_prefix_cons, List.nil_prefix, List.prefix_nil, and_true,
      reduceCtorEq, and_false] at hc
    all_goals omega
  | two h =>
    have := lead_more h
    repeat' split at hc
    all_goals simp only [List.cons_append, List.nil_append, List.cons_prefix_cons, List.nil_prefix, List.prefix_nil, and_true,
      reduceCtorEq, and_false] at hc
    all_goals omega
  | three h =>
    have := lead_more h
    repeat' split at hc
    all_goals simp only [List.cons_append, List.nil_append, List.cons_prefix_cons, List.nil_prefix, List.prefix_nil, and_true,
      reduceCtorEq, and_false] at hc
    all_goals omega

/-- the last byte of a character -/
theorem pending_last {p : List Nat} {x lo hi b : Nat} (h : Pending p (x, 1, lo, hi)) (h1 : lo ≤ b) (h2 : b ≤ hi) :
    utf8Bytes (Char.ofNat (x * 64 + (b - 0x80))) = p ++ [b] := by
  generalize hn : (1 : Nat) = n at h
  cases h with
  | one h =>
    subst hn
    have := lead_more h
    rw [utf8Bytes_ofNat (by unfold ValidValue; omega), valueBytes, if_neg (by omega), if_pos (by omega)]
    simp only [List.cons_append, List.nil_append, List.cons.injEq, and_true]
    omega
  | two h =>
    have := lead_more h
    rw [utf8Bytes_ofNat (by unfold ValidValue; omega), valueBytes, if_neg (by omega), if_neg (by omega), if_pos (by omega)]
    simp only [List.cons_append, List.nil_append, List.cons.injEq, and_true]
    omega
  | three h =>
    have := lead_more h
    rw [utf8Bytes_ofNat (by unfold ValidValue; omega), valueBytes, if_neg (by omega), if_neg (by omega), if_neg (by omega)]
    simp only [List.cons_append, List.nil_append, List.cons.injEq, and_true]
    omega

/-- a byte in the middle of a character -/
theorem pending_next {p : List Nat} {x n lo hi b : Nat} (h : Pending p (x, n, lo, hi)) (hn : n ≠ 1) (h1 : lo ≤ b) (h2 : b ≤ hi) :
    Pending (p ++ [b]) (x * 64 + (b - 0x80), n - 1, 0x80, 0xBF) := by
  cases h with
  | one h => exact .two h hn h1 h2 rfl rfl rfl rfl
  | two h a b' c d e f g =>
    exact .three h a (by omega) b' c (by omega) (by omega) (by rw [d]) (by omega) rfl rfl
  | three h =>
    have := lead_more h
    omega

theorem pending_positive {p : List Nat} {x n lo hi : Nat} (h : Pending p (x, n, lo, hi)) : 0 < n ∧ lo ≤ hi := by
  cases h with
  | one h => have := lead_more h; omega
  | two h => have := lead_more h; omega
  | three h => have := lead_more h; omega

/-- a pending character is unfinished -/
theorem pending_unfinished {p : List Nat} {x n lo hi : Nat} (h : Pending p (x, n, lo, hi)) : Unfinished p := by
  have key : ∀ k p x n lo hi, n = k + 1 → Pending p (x, n, lo, hi) → ∃ c, p <+: utf8Bytes c := by
    intro k
    induction k with
    | zero =>
      intro p x n lo hi hn h
      subst hn
      exact ⟨_, by rw [pending_last h (Nat.le_refl lo) (pending_positive h).2]; exact List.prefix_append _ _⟩
    | succ k ih =>
      intro p x n lo hi hn h
      have h' := pending_next h (by omega) (Nat.le_refl lo) (pending_positive h).2
      obtain ⟨c, hc⟩ := ih _ _ _ _ _ (by omega) h'
      exact ⟨c, (List.prefix_append _ _).trans hc⟩
  obtain ⟨c, hc⟩ := key (n - 1) p x n lo hi (by have := pending_positive h; omega) h
  exact ⟨c, hc, fun e => pending_part h c (e ▸ List.prefix_rfl)⟩

theorem replace_stop {x n lo hi b : Nat} {l : List Nat} (h : ¬ (lo ≤ b ∧ b ≤ hi)) :
    utf8Replace (some (x, n, lo, hi)) (b :: l) = replacementChar :: utf8Replace none (b :: l) := by
  rw [utf8Replace.eq_def]
  simp only [if_neg h]
  conv => rhs; rw [utf8Replace.eq_def]
  simp only
  cases leadByte b <;> rfl

/-- what is cut off where no character is -/
structure Cut (l p r : List Nat) : Prop where
  eq : l = p ++ r
  none : ∀ c, ¬ utf8Bytes c <+: l
  part : p.length = 1 ∨ 1 < p.length ∧ Unfinished p
  most : ∀ q, Unfinished q → q <+: l → q.length ≤ p.length

theorem cut_unique {l p r p' r' : List Nat} (h : Cut l p r) (h' : Cut l p' r') : p = p' ∧ r = r' := by
  have h1 : p.length ≤ p'.length := by
    rcases h.part with e | ⟨_, e⟩
    · rcases h'.part with e' | ⟨e', _⟩ <;> omega
    · exact h'.most p e (h.eq ▸ List.prefix_append _ _)
  have h2 : p'.length ≤ p.length := by
    rcases h'.part with e | ⟨_, e⟩
    · rcases h.part with e' | ⟨e', _⟩ <;> omega
    · exact h.most p' e (h'.eq ▸ List.prefix_append _ _)
  exact List.append_inj (h.eq.symm.trans h'.eq) (by omega)

theorem prefix_longer {α : Type} {q p r : List α} {b : α} (h : q <+: p ++ b :: r) (hl : p.length < q.length) : p ++ [b] <+: q := by
  have h' : p ++ [b] <+: p ++ b :: r := ⟨r, by simp⟩
  exact List.prefix_of_prefix_length_le h' h (by simp; omega)

theorem pending_run (l : List Nat) : ∀ {p : List Nat} {x n lo hi : Nat}, Pending p (x, n, lo, hi) →
    (∃ c r, p ++ l = utf8Bytes c ++ r) ∨ ∃ q r, Cut (p ++ l) q r ∧ utf8Replace (some (x, n, lo, hi)) l = replacementChar :: utf8Replace none r := by
  induction l with
  | nil =>
    intro p x n lo hi h
    right
    have hp : p ≠ [] := by cases h <;> simp
    refine ⟨p, [], ⟨rfl, fun c hc => pending_part h c (by simpa using hc), ?_, ?_⟩, rfl⟩
    · cases p with
      | nil => exact absurd rfl hp
      | cons a p =>
        cases p with
        | nil => exact Or.inl rfl
        | cons b p => exact Or.inr ⟨by simp, pending_unfinished h⟩
    · intro q _ hq
      simpa using hq.length_le
  | cons b l ih =>
    intro p x n lo hi h
    by_cases hb : lo ≤ b ∧ b ≤ hi
    · by_cases hn : n = 1
      · subst hn
        left
        exact ⟨_, l, by rw [pending_last h hb.1 hb.2]; simp⟩
      · have := ih (pending_next h hn hb.1 hb.2)
        rw [List.append_assoc] at this
        rcases this with h' | ⟨q, r, h1, h2⟩
        · exact Or.inl h'
        · refine Or.inr ⟨q, r, h1, ?_⟩
          rw [utf8Replace, if_pos hb, if_neg hn]
          exact h2
    · right
      have hp : p ≠ [] := by cases h <;> simp
      have hs : ∀ c, ¬ p ++ [b] <+: utf8Bytes c := fun c hc => hb (pending_stop h c hc)
      refine ⟨p, b :: l, ⟨rfl, ?_, ?_, ?_⟩, replace_stop hb⟩
      · intro c hc
        by_cases hl : p.length < (utf8Bytes c).length
        · exact hs c (prefix_longer hc hl)
        · exact pending_part h c (List.prefix_of_prefix_length_le hc (List.prefix_append _ _) (by omega))
      · cases p with
        | nil => exact absurd rfl hp
        | cons a p =>
          cases p with
          | nil => exact Or.inl rfl
          | cons b p => exact Or.inr ⟨by simp, pending_unfinished h⟩
      · rintro q ⟨c, hc, _⟩ hq
        exact Nat.le_of_not_lt (fun hl => hs c ((prefix_longer hq hl).trans hc))

theorem bad_begins {b : Nat} (h : leadByte b = .bad) (c : Char) : ¬ [b] <+: utf8Bytes c := by
  intro hc
  have := lead_bad h
  rw [utf8Bytes_eq] at hc
  have hv := valid c
  unfold ValidValue at hv
  generalize c.val.toNat = v at *
  unfold valueBytes at hc
  repeat' split at hc
  all_goals simp only [List.cons_prefix_cons, List.nil_prefix, and_true] at hc
  all_goals omega

theorem utf8Bytes_ne_nil (c : Char) : utf8Bytes c ≠ [] := by
  unfold utf8Bytes
  simpa using String.utf8EncodeChar_ne_nil

/-- at every byte there is a character or something is cut off -/
theorem replace_cases {l : List Nat} (hl : l ≠ []) :
    (∃ c r, l = utf8Bytes c ++ r) ∨ ∃ q r, Cut l q r ∧ utf8Replace none l = replacementChar :: utf8Replace none r := by
  cases l with
  | nil => exact absurd rfl hl
  | cons b l =>
    cases h : leadByte b with
    | char c =>
      obtain ⟨h1, rfl⟩ := lead_char h
      left
      refine ⟨Char.ofNat b, l, ?_⟩
      rw [utf8Bytes_ofNat (by unfold ValidValue; omega), valueBytes, if_pos (by omega)]
      rfl
    | more x n lo hi =>
      rcases pending_run l (.one h) with h' | ⟨q, r, h1, h2⟩
      · exact Or.inl h'
      · refine Or.inr ⟨q, r, h1, ?_⟩
        rw [utf8Replace, h]
        exact h2
    | bad =>
      right
      have hb := bad_begins h
      refine ⟨[b], l, ⟨rfl, ?_, Or.inl rfl, ?_⟩, ?_⟩
      · intro c hc
        refine hb c ?_
        cases e : utf8Bytes c with
        | nil => exact absurd e (utf8Bytes_ne_nil c)
        | cons a t =>
          rw [e] at hc
          simp only [List.cons_prefix_cons] at hc
          rw [hc.1]
          simp
      · rintro q ⟨c, hc, _⟩ hq
        exact Nat.le_of_not_lt (fun hl => hb c ((prefix_longer (p := []) hq (by simp at hl ⊢; omega)).trans hc))
      · rw [utf8Replace, h]

theorem utf8_bytes (c : Char) (l : List Nat) : utf8Replace none (utf8Bytes c ++ l) = c :: utf8Replace none l := utf8_char c l

theorem cut_replace {l p r : List Nat} (h : Cut l p r) : utf8Replace none l = replacementChar :: utf8Replace none r := by
  have hl : l ≠ [] := by
    rw [h.eq]
    intro e
    rw [List.append_eq_nil_iff] at e
    rcases h.part with e' | ⟨e', _⟩
    · rw [e.1] at e'; cases e'
    · rw [e.1] at e'; simp at e'
  rcases replace_cases hl with ⟨c, r', e⟩ | ⟨q, r', h1, h2⟩
  · exact absurd (e ▸ List.prefix_append _ _) (h.none c)
  · obtain ⟨_, rfl⟩ := cut_unique h h1
    exact h2

theorem shown_replace {l : List Nat} {s : Str} (h : ShownBytes l s) : utf8Replace none l = s := by
  induction h with
  | nil => rfl
  | char c _ ih => rw [utf8_bytes, ih]
  | broken h1 h2 h3 _ ih => rw [cut_replace ⟨rfl, h1, h2, h3⟩, ih]; rfl

theorem replace_shown (n : Nat) : ∀ l : List Nat, l.length ≤ n → ShownBytes l (utf8Replace none l) := by
  induction n with
  | zero =>
    intro l hl
    have : l = [] := List.eq_nil_of_length_eq_zero (by omega)
    subst this
    exact .nil
  | succ n ih =>
    intro l hl
    by_cases hn : l = []
    · subst hn; exact .nil
    rcases replace_cases hn with ⟨c, r, rfl⟩ | ⟨q, r, h1, h2⟩
    · rw [utf8_bytes]
      refine .char c (ih r ?_)
      have := List.length_pos_iff.2 (utf8Bytes_ne_nil c)
      simp at hl
      omega
    · rw [h2]
      obtain ⟨rfl, a, b, d⟩ := h1
      refine .broken a b d (ih r ?_)
      simp at hl
      rcases b with b | ⟨b, _⟩ <;> omega

/-! ### Texts -/

theorem stands_bytes {t : Str} {bs : List Nat} (h : StandsFor t bs) : percentBytes t = bs ∧ ∀ c ∈ t, c.toNat < 128 := by
  induction h with
  | nil => exact ⟨rfl, by simp⟩
  | plain h1 h2 _ ih =>
    refine ⟨by rw [percentBytes_plain h2, ih.1], ?_⟩
    intro c hc
    rcases List.mem_cons.1 hc with rfl | hc
    · exact h1
    · exact ih.2 c hc
  | coded h1 h2 _ ih =>
    refine ⟨by simp only [percentBytes, if_true, (hex_value h1).1, (hex_value h2).1, ih.1], ?_⟩
    intro c hc
    simp only [List.mem_cons] at hc
    rcases hc with rfl | rfl | rfl | hc
    · decide
    · exact (hex_value h1).2
    · exact (hex_value h2).2
    · exact ih.2 c hc
  | stray h1 _ ih =>
    refine ⟨by rw [percentBytes_stray h1, ih.1], ?_⟩
    intro c hc
    rcases List.mem_cons.1 hc with rfl | hc
    · decide
    · exact ih.2 c hc

theorem bytes_stand (n : Nat) : ∀ t : Str, t.length ≤ n → (∀ c ∈ t, c.toNat < 128) → StandsFor t (percentBytes t) := by
  induction n with
  | zero =>
    intro t hl _
    have : t = [] := List.eq_nil_of_length_eq_zero (by omega)
    subst this
    exact .nil
  | succ n ih =>
    intro t hl ha
    cases t with
    | nil => exact .nil
    | cons c t =>
      have ht := ih t (by simp at hl; omega) (fun x hx => ha x (by simp [hx]))
      by_cases hc : c = '%'
      · subst hc
        by_cases hx : ∃ a b r m n, t = a :: b :: r ∧ HexDigit m a ∧ HexDigit n b
        · obtain ⟨a, b, r, m, k, rfl, h1, h2⟩ := hx
          simp only [percentBytes, if_true, (hex_value h1).1, (hex_value h2).1]
          exact .coded h1 h2 (ih r (by simp at hl; omega) (fun x hx => ha x (by simp [hx])))
        · have hx' : ∀ a b r m n, t = a :: b :: r → ¬ (HexDigit m a ∧ HexDigit n b) :=
            fun a b r m n e h => hx ⟨a, b, r, m, n, e, h.1, h.2⟩
          rw [percentBytes_stray hx']
          exact .stray hx' ht
      · rw [percentBytes_plain hc]
        exact .plain (ha c (by simp)) hc ht

theorem runs_decode (n : Nat) : ∀ t : Str, t.length ≤ n → DecodesTo t (unquoteRuns [] t) := by
  induction n with
  | zero =>
    intro t hl
    have : t = [] := List.eq_nil_of_length_eq_zero (by omega)
    subst this
    exact .last .nil .nil
  | succ n ih =>
    intro t hl
    rw [unquoteRuns_eq, List.nil_append]
    have h1 : ∀ c ∈ t.takeWhile ascii, c.toNat < 128 := by
      intro c hc
      have : ascii c = true := by
        clear hl
        induction t with
        | nil => cases hc
        | cons a t iht =>
          by_cases ha : ascii a = true
          · rw [List.takeWhile_cons_of_pos ha] at hc
            rcases List.mem_cons.1 hc with rfl | hc
            · exact ha
            · exact iht hc
          · rw [List.takeWhile_cons_of_neg ha] at hc; cases hc
      simpa [ascii] using this
    have h2 := bytes_stand _ _ (Nat.le_refl _) h1
    have h3 := replace_shown _ (percentBytes (t.takeWhile ascii)) (Nat.le_refl _)
    have ht := (List.takeWhile_append_dropWhile (p := ascii) (l := t)).symm
    have hlen := congrArg List.length ht
    cases hd : t.dropWhile ascii with
    | nil =>
      rw [hd, List.append_nil] at ht
      simp only [List.append_nil]
      have := DecodesTo.last h2 h3
      rwa [← ht] at this ⊢
    | cons c r =>
      rw [hd] at ht hlen
      have hc : 128 ≤ c.toNat := by
        have := List.head?_dropWhile_not ascii t
        rw [hd] at this
        simp only [List.head?_cons] at this
        simp [ascii] at this
        omega
      have := DecodesTo.more h2 h3 hc (ih r (by simp at hlen; omega))
      rw [← ht] at this
      exact this

theorem decodes_runs {t s : Str} (h : DecodesTo t s) : unquoteRuns [] t = s := by
  induction h with
  | @last t s bs h1 h2 =>
    obtain ⟨e1, e2⟩ := stands_bytes h1
    rw [unquoteRuns_eq]
    obtain ⟨a, b⟩ := takeWhile_ascii_append e2 []
    rw [List.append_nil] at a b
    rw [a, b]
    simp only [List.takeWhile_nil, List.append_nil, List.dropWhile_nil, List.nil_append]
    rw [e1, shown_replace h2]
  | @more t r s u c bs h1 h2 hc _ ih =>
    obtain ⟨e1, e2⟩ := stands_bytes h1
    have ha : ¬ ascii c = true := by simp [ascii]; omega
    rw [unquoteRuns_eq]
    obtain ⟨a, b⟩ := takeWhile_ascii_append e2 (c :: r)
    rw [a, b, List.takeWhile_cons_of_neg ha, List.dropWhile_cons_of_neg ha]
    simp only [List.append_nil, List.nil_append]
    rw [e1, shown_replace h2, ih]

theorem runs_no_percent (t : Str) : ∀ run : Str, (∀ c ∈ run, c.toNat < 128) → '%' ∉ run → '%' ∉ t → unquoteRuns run t = run ++ t := by
  have hb : ∀ run : Str, (∀ c ∈ run, c.toNat < 128) → '%' ∉ run → utf8Replace none (percentBytes run) = run := by
    intro run
    induction run with
    | nil => intros; rfl
    | cons c run ih =>
      intro h1 h2
      simp only [List.mem_cons, not_or] at h2
      rw [percentBytes_plain (Ne.symm h2.1), utf8_ascii (h1 c (by simp)), ih (fun x hx => h1 x (by simp [hx])) h2.2]
  induction t with
  | nil => intro run h1 h2 _; simp only [unquoteRuns, hb run h1 h2, List.append_nil]
  | cons c t ih =>
    intro run h1 h2 h3
    simp only [List.mem_cons, not_or] at h3
    rw [unquoteRuns]
    split
    · next hc =>
      rw [ih (run ++ [c]) ?_ ?_ h3.2]
      · simp
      · intro x hx
        rcases List.mem_append.1 hx with hx | hx
        · exact h1 x hx
        · rw [List.mem_singleton.1 hx]; exact hc
      · simp only [List.mem_append, List.mem_singleton, not_or]
        exact ⟨h2, h3.1⟩
    · rw [hb run h1 h2, ih [] (by simp) (by simp) h3.2]
      rfl

theorem unquote_runs (t : Str) : unquote t = unquoteRuns [] t := by
  unfold unquote
  split
  · rfl
  · next h => rw [runs_no_percent t [] (by simp) (by simp) h]; rfl

theorem unquote_decodes (t s : Str) : unquote t = s ↔ DecodesTo t s := by
  rw [unquote_runs]
  constructor
  · rintro rfl; exact runs_decode _ t (Nat.le_refl _)
  · exact decodes_runs

end Verif.Proofs
