import Verif.Proofs.Csv
import Verif.Proofs.PageNumber
import Verif.Spec.Csv
import Verif.Proofs.Json
import Verif.Proofs.Command
import Verif.Proofs.Number

/-! Rows of commands in a CSV file. -/
namespace Verif.Proofs
open Verif.Py Verif.Model Verif.Spec

/-! ### Which texts can be numbers -/

theorem digit_bounds97 {c : Char} (h : isDigit c = true) : '0' ≤ c ∧ c ≤ '9' := by
  unfold isDigit at h
  simpa using h

theorem numText_writes (n : Num) : WritesNum (numText n) (worth n) := by
  cases n with
  | int n =>
    rw [numText, pyStrInt]
    obtain ⟨h1, h2⟩ := decimal_natDigits n.natAbs
    split
    · refine Or.inr (Or.inr ⟨_, rfl, Or.inl ⟨h1, ?_⟩⟩)
      rw [h2, worth]
      have : ((n.natAbs : Int) : ℚ) = -(n : ℚ) := by rw [← Int.cast_neg]; congr 1; omega
      rw [← this]; rfl
    · refine Or.inl (Or.inl ⟨h1, ?_⟩)
      rw [h2, worth]
      have : ((n.natAbs : Int) : ℚ) = (n : ℚ) := by congr 1; omega
      rw [← this]; rfl
  | dec m k =>
    have hp := padded_facts m.natAbs k
    simp only at hp
    rw [numText, decText]
    generalize List.replicate (k + 1 - (natDigits m.natAbs).length) '0' ++ natDigits m.natAbs = p at hp
    obtain ⟨hl, ha, hv, hw⟩ := hp
    have ha' : ∀ c ∈ p, '0' ≤ c ∧ c ≤ '9' := fun c hc => digit_bounds97 (ha c hc)
    have hd : Decimal (p.take (p.length - k) ++ '.' :: p.drop (p.length - k)) ((m.natAbs : ℚ) / 10 ^ k) := by
      refine Or.inr ⟨_, _, rfl, ⟨?_, ?_⟩, ?_⟩
      · rw [List.take_append_drop]
        intro e
        rw [e] at hl
        simp at hl
      · rw [List.take_append_drop]; exact ha'
      · rw [List.take_append_drop, List.length_drop, show p.length - (p.length - k) = k by omega]
        have := digitsVal_eq p ha'
        rw [hv] at this
        have : m.natAbs = decimal p := by exact_mod_cast this
        rw [this]
    split
    · refine Or.inr (Or.inr ⟨_, rfl, ?_⟩)
      rw [worth]
      have : ((m.natAbs : Int) : ℚ) = -(m : ℚ) := by rw [← Int.cast_neg]; congr 1; omega
      rw [← neg_div, ← this]
      exact hd
    · refine Or.inl ?_
      rw [worth]
      have : ((m.natAbs : Int) : ℚ) = (m : ℚ) := by congr 1; omega
      rw [← this]
      exact hd

theorem writes_unique {s : Str} {p q : ℚ} (h1 : WritesNum s p) (h2 : WritesNum s q) : p = q := by
  obtain ⟨m, e1, rfl⟩ := (parsePlain_iff s p).2 h1
  obtain ⟨n, e2, rfl⟩ := (parsePlain_iff s q).2 h2
  rw [e1] at e2
  injection e2 with e2
  rw [e2]

/-- the characters a number begins with -/
theorem writes_head {s : Str} {q : ℚ} (h : WritesNum s q) : ∃ c t, s = c :: t ∧ (('0' ≤ c ∧ c ≤ '9') ∨ c = '.' ∨ c = '+' ∨ c = '-') := by
  have dec : ∀ {s q}, Decimal s q → ∃ c t, s = c :: t ∧ (('0' ≤ c ∧ c ≤ '9') ∨ c = '.' ∨ c = '+' ∨ c = '-') := by
    rintro s q (⟨⟨h1, h2⟩, _⟩ | ⟨a, b, rfl, ⟨h1, h2⟩, _⟩)
    · cases s with
      | nil => exact absurd rfl h1
      | cons c t => exact ⟨c, t, rfl, Or.inl (h2 c (by simp))⟩
    · cases a with
      | nil => exact ⟨_, _, rfl, by simp⟩
      | cons c t => exact ⟨c, _, rfl, Or.inl (h2 c (by simp))⟩
  rcases h with h | ⟨t, rfl, _⟩ | ⟨t, rfl, _⟩
  · exact dec h
  · exact ⟨_, _, rfl, by simp⟩
  · exact ⟨_, _, rfl, by simp⟩

/-! ### What a cell written is read as -/

/-- not missing, no truth value, no number -/
def plainB (s : Str) : Bool := !missingTexts.contains s && !(boolTexts true).contains s && !(boolTexts false).contains s &&
  !numberLike s

theorem plain_of {s : Str} (h : plainB s = true) : PlainText s := by
  unfold plainB at h
  simp only [Bool.and_eq_true, Bool.not_eq_true'] at h
  obtain ⟨⟨⟨h1, h2⟩, h3⟩, h4⟩ := h
  intro c hc
  cases c with
  | text t => rw [hc.1]
  | nan => rw [List.contains_iff_mem.2 hc] at h1; cases h1
  | bool b =>
    cases b
    · rw [List.contains_iff_mem.2 hc] at h3; cases h3
    · rw [List.contains_iff_mem.2 hc] at h2; cases h2
  | num n =>
    rw [hc.2.1] at h4
    cases h4

/-- the characters a text that looks like a number may begin with -/
def headB (c : Char) : Bool := isDigit c || "+-.eE \t".toList.contains c || "i+-".toList.contains c.toLower

theorem like_head {c : Char} {t : Str} (h : numberLike (c :: t) = true) : headB c = true := by
  unfold numberLike at h
  unfold headB
  rw [Bool.or_eq_true] at h
  rcases h with h | h
  · rw [Bool.and_eq_true, List.all_cons, Bool.and_eq_true] at h
    rw [h.1.1, Bool.true_or]
  · by_cases hs : c = ' ' ∨ c = '\t'
    · rcases hs with rfl | rfl <;> decide
    · rw [not_or] at hs
      rw [List.filter_cons_of_pos (by simp [hs.1, hs.2]), List.map_cons, List.contains_iff_mem] at h
      have : "i+-".toList.contains c.toLower = true := by
        rw [List.contains_iff_mem]
        simp only [List.mem_cons, List.not_mem_nil, or_false] at h
        rcases h with h | h | h | h | h | h <;>
        · injection h with h _
          rw [h]
          decide
      rw [this, Bool.or_true]

/-- the missing texts and the truth values that are JSON -/
theorem missing_loads : ∀ s ∈ missingTexts, s = "null".toList ∨ jsonLoads s = .error .valueError := by decide +kernel
theorem bool_loads : ∀ b : Bool, ∀ s ∈ boolTexts b, jsonLoads s = .ok (.bool b) ∨ jsonLoads s = .error .valueError := by decide +kernel

/-- a value that is no text, written as JSON, is read as it was, whatever pandas makes of it -/
theorem json_cell {v : Val} (hv : ValOk v) {c : Cell} (h : CellRead (jsonDumps v) c) : jsonLoadAny c = .ok v := by
  have hl := loads_dumps v hv
  cases c with
  | text t => rw [h.1]; exact hl
  | nan =>
    rcases missing_loads _ h with e | e
    · rw [e] at hl
      have : jsonLoads "null".toList = .ok .none := by decide +kernel
      rw [this] at hl
      exact hl
    · rw [e] at hl; cases hl
  | bool b =>
    rcases bool_loads b _ h with e | e
    · rw [e] at hl
      cases b
      · exact (show jsonLoads "false".toList = .ok (.bool false) by decide +kernel).trans hl
      · exact (show jsonLoads "true".toList = .ok (.bool true) by decide +kernel).trans hl
    · rw [e] at hl; cases hl
  | num n =>
    obtain ⟨h1, hl, h2⟩ := h
    have hn : v = .num n := by
      cases v with
      | num m =>
        rw [jsonDumps] at h2
        rw [worth_inj hv h1 (h2 _ (numText_writes m))]
      | none => exact absurd hl (by decide +kernel)
      | bool b => cases b <;> exact absurd hl (by decide +kernel)
      | str s => rw [jsonDumps, jsonStr] at hl; exact absurd (like_head hl) (by decide)
      | list l =>
        cases l with
        | nil => rw [jsonDumps] at hl; exact absurd (like_head hl) (by decide)
        | cons a l => rw [jsonDumps] at hl; exact absurd (like_head hl) (by decide)
    rw [hn]
    exact loads_dumps (.num n) h1

/-! ### Carriage returns -/

theorem numText_chars (n : Num) : '\r' ∉ numText n := by
  cases n with
  | int n => exact pyStrInt_not_mem n '\r' (by decide) (by decide)
  | dec m k =>
    have hp := padded_facts m.natAbs k
    simp only at hp
    rw [numText, decText]
    generalize List.replicate (k + 1 - (natDigits m.natAbs).length) '0' ++ natDigits m.natAbs = p at hp
    obtain ⟨hl, ha, hv, hw⟩ := hp
    have hp : '\r' ∉ p := by
      intro h
      have := ha _ h
      revert this
      decide
    intro h
    rcases List.mem_append.1 h with h | h
    · rcases List.mem_append.1 h with h | h
      · split at h <;> simp at h
      · exact hp (List.mem_of_mem_take h)
    · rcases List.mem_cons.1 h with h | h
      · revert h; decide
      · exact hp (List.mem_of_mem_drop h)

theorem hexDigit_chars (n : Nat) (h : n < 16) : hexDigit n ≠ '\r' := by
  revert h; revert n; decide

theorem uEscape_chars (n : Nat) : '\r' ∉ uEscape n := by
  unfold uEscape
  have := fun k => hexDigit_chars (k % 16) (Nat.mod_lt _ (by decide))
  simp only [List.mem_cons, List.not_mem_nil, or_false, not_or]
  exact ⟨by decide, by decide, (this _).symm, (this _).symm, (this _).symm, (this _).symm⟩

theorem jsonChar_chars (c : Char) : '\r' ∉ jsonChar c := by
  unfold jsonChar
  repeat' split
  all_goals first
    | exact uEscape_chars _
    | (intro h
       rcases List.mem_append.1 h with h | h <;> exact uEscape_chars _ h)
    | decide
    | skip
  intro h
  simp only [List.mem_cons, List.not_mem_nil, or_false] at h
  rename_i h4 _ _ _ _
  exact h4 h.symm

mutual
theorem dumps_chars (v : Val) : '\r' ∉ jsonDumps v := by
  match v with
  | .none => rw [jsonDumps]; decide
  | .bool true => rw [jsonDumps]; decide
  | .bool false => rw [jsonDumps]; decide
  | .num n => rw [jsonDumps]; exact numText_chars n
  | .str s =>
    rw [jsonDumps, jsonStr]
    intro h
    simp only [List.cons_append, List.mem_cons, List.mem_append, List.mem_flatMap, List.not_mem_nil, or_false] at h
    rcases h with h | ⟨c, _, h⟩ | h
    · revert h; decide
    · exact jsonChar_chars c h
    · revert h; decide
  | .list [] => rw [jsonDumps]; decide
  | .list (v :: l) =>
    rw [jsonDumps]
    intro h
    simp only [List.mem_cons, List.mem_append] at h
    rcases h with h | h | h
    · revert h; decide
    · exact dumps_chars v h
    · exact items_chars l h
theorem items_chars (l : List Val) : '\r' ∉ jsonItems l := by
  match l with
  | [] => rw [jsonItems]; decide
  | v :: l =>
    rw [jsonItems]
    intro h
    simp only [List.mem_cons, List.mem_append] at h
    rcases h with h | h | h | h
    · revert h; decide
    · revert h; decide
    · exact dumps_chars v h
    · exact items_chars l h
end

/-! ### Names -/

theorem event_plain (e : EventType) : plainB e.name = true ∧ '\r' ∉ e.name := by cases e <;> decide +kernel
theorem scope_plain (s : Scope) : plainB s.name = true ∧ '\r' ∉ s.name := by cases s <;> decide +kernel
theorem update_plain (u : Update) : plainB u.name = true ∧ '\r' ∉ u.name := by cases u <;> decide +kernel
theorem property_plain : ∀ x ∈ kindTable, plainB x.2.1.toList = true ∧ '\r' ∉ x.2.1.toList := by decide +kernel
theorem all_plain : plainB "all".toList = true := by decide +kernel
theorem empty_read {c : Cell} (h : CellRead [] c) : c = .nan := by
  cases c with
  | nan => rfl
  | text t => exact absurd (by decide +kernel) h.2
  | bool b => cases b <;> exact absurd (show [] ∈ boolTexts _ from h) (by decide +kernel)
  | num n =>
    exact absurd h.2.1 (by decide +kernel)

/-- a text that stands for a missing value is always read as one -/
theorem missing_read {s : Str} (hs : s ∈ missingTexts) {c : Cell} (h : CellRead s c) : c = .nan := by
  have h1 : ∀ s ∈ missingTexts, numberLike s = false ∧ s ∉ boolTexts true ∧ s ∉ boolTexts false := by decide +kernel
  obtain ⟨h1, h2, h3⟩ := h1 s hs
  cases c with
  | nan => rfl
  | text t => exact absurd hs h.2
  | bool b => cases b; exacts [absurd h h3, absurd h h2]
  | num n => rw [h.2.1] at h1; cases h1

theorem whole_read {n : Int} {m : Num} (h : CellRead (pyStrInt n) (.num m)) : m = .int n := by
  have h1 : WritesNum (pyStrInt n) (worth (.int n)) := numText_writes (.int n)
  exact (worth_inj (a := .int n) trivial h.1 (h.2.2 _ h1)).symm

end Verif.Proofs
