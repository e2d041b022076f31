import Verif.Proofs.NumberText
import Verif.Props.Command
import Verif.Props.Record
import Mathlib.Algebra.Order.Field.Rat

/-! Property C86, and the meaning of numbers in C38 and C45. -/
namespace Verif.Props
open Verif.Py Verif.Model Verif.Spec Verif.Proofs

/-! ### C86 -/

/-- **C86.** A text is read as a number worth `q` exactly if it is a text of `q`: decimal digits with or without a sign, a decimal
    point, an exponent, white space around them and underscores between digits. -/
theorem C86_exact (s : Str) (q : ℚ) : (∃ n, parseNum s = .ok n ∧ worth n = q) ↔ NumberText s q := parseNum_iff s q

/-- **C86.** A text of infinity is refused with an `OverflowError`, and no other text is. -/
theorem C86_infinite (s : Str) : parseNum s = .error .overflowError ↔ InfinityText s := number_infinite s

/-- **C86.** Any other text is refused with a `ValueError`. -/
theorem C86_refused (s : Str) : parseNum s = .error .valueError ↔ (∀ q, ¬ NumberText s q) ∧ ¬ InfinityText s := number_refused s

/-- **C86.** A text stands for at most one number, and plain decimals stand for what their digits say. -/
theorem C86_one (s : Str) (p q : ℚ) (hp : NumberText s p) : (NumberText s q → p = q) ∧ (WritesNum s q → p = q) := by
  have one : ∀ {q}, NumberText s q → p = q := by
    intro q hq
    obtain ⟨m, h1, h2⟩ := (parseNum_iff s p).2 hp
    obtain ⟨n, h3, h4⟩ := (parseNum_iff s q).2 hq
    rw [h1] at h3
    cases h3
    rw [← h2, h4]
  exact ⟨one, fun h => one (writes_number h)⟩

/-- **C86.** An attribute that is read as a whole number (a player, a tile, a meld) is read as `k` exactly if it is a text of `k`,
    and any other text is refused with a `ValueError`. -/
theorem C86_whole (s : Str) : (∀ k : Int, pyInt s = .ok k ↔ IntText s k) ∧ (pyInt s = .error .valueError ↔ ∀ k, ¬ IntText s k) :=
  ⟨pyInt_iff s, int_refused s⟩

/-- **C86.** The white space that may stand around a number, that makes an answer blank and a name empty, is that of Unicode. -/
theorem C86_space (c : Char) : isSpace c = true ↔ White c := isSpace_iff c

/-- **C86.** However it is written, the same number is read as the same value, a whole number as a whole number. -/
theorem C86_same (s t : Str) (m n : Num) (hs : parseNum s = .ok m) (ht : parseNum t = .ok n) :
    (worth m = worth n ↔ m = n) ∧ ∀ z : Int, worth m = z ↔ m = .int z :=
  ⟨⟨worth_inj (parseNum_ok hs) (parseNum_ok ht), fun h => by rw [h]⟩, worth_int (parseNum_ok hs)⟩

/-- **C86.** A list of numbers separated by commas is read entry by entry: the result has one number per entry,
    worth what that entry writes. -/
theorem C86_list (ts : List Str) (hne : ts ≠ []) (hc : ∀ t ∈ ts, ',' ∉ t) (qs : List ℚ) :
    (∃ l, numberList (joinWith ',' ts) = .ok l ∧ l.map worth = qs) ↔ List.Forall₂ NumberText ts qs := by
  rw [numberList, splitOn_join ',' ts hne hc]
  clear hne hc
  induction ts generalizing qs with
  | nil =>
    constructor
    · rintro ⟨l, h, rfl⟩
      cases h
      exact .nil
    · intro h
      cases h
      exact ⟨[], rfl, rfl⟩
  | cons t ts ih =>
    rw [List.mapM_cons]
    constructor
    · rintro ⟨l, h, rfl⟩
      simp only [bind_ok, pure_ok] at h
      obtain ⟨n, h1, l', h2, rfl⟩ := h
      exact .cons ((parseNum_iff t _).mp ⟨n, h1, rfl⟩) ((ih _).mp ⟨l', h2, rfl⟩)
    · intro h
      cases h with
      | cons hq hqs =>
        obtain ⟨n, h1, h2⟩ := (parseNum_iff t _).mpr hq
        obtain ⟨l, h3, h4⟩ := (ih _).mpr hqs
        refine ⟨n :: l, ?_, by rw [List.map_cons, h2, h4]⟩
        simp only [bind_ok, pure_ok]
        exact ⟨n, h1, l, h3, rfl⟩

/-- `-12.50` is read as minus twelve and a half -/
example : WritesNum "-12.50".toList (-25 / 2) :=
  .inr (.inr ⟨"12.50".toList, rfl, .inr ⟨"12".toList, "50".toList, rfl, ⟨by decide, by decide⟩, by
    rw [show decimal ("12".toList ++ "50".toList) = 1250 by decide, show ("50".toList : Str).length = 2 by decide]; norm_num⟩⟩)

example : parseNum "-12.50".toList = .ok (.dec (-125) 1) ∧ parseNum "+7.0".toList = .ok (.int 7) ∧
    parseNum "1.2.3".toList = .error .valueError ∧ parseNum " 2_5.0e1\n".toList = .ok (.int 250) ∧ parseNum "125E-1".toList = .ok (.dec 125 1) ∧
    parseNum " -Infinity".toList = .error .overflowError ∧ parseNum "nan".toList = .error .valueError ∧
    parseNum "2__5".toList = .error .valueError ∧ parseNum "2 5".toList = .error .valueError ∧ pyInt " +1_0 ".toList = .ok 10 ∧
    pyInt "1_".toList = .error .valueError ∧ pyInt "1e1".toList = .error .valueError ∧ parseNum "".toList = .error .valueError := by decide +kernel

example : numberList "250,-3.5,.25".toList = .ok [.int 250, .dec (-35) 1, .dec 25 2] := by decide +kernel

/-! ### C45: what adding and removing do to numbers -/

/-- **C45.** Adding a number to a number of the state gives their sum. -/
theorem C45_add_number (c : Cmd) (k : PropKind) (hk : HasKind c.prop k) (hu : c.update = .add) (a b : Num)
    (hv : c.value = .num b) : ∃ s, newValue c (.num a) = .ok (.num s) ∧ worth s = worth a + worth b := by
  refine ⟨a.add b, ?_, worth_add a b⟩
  rw [C45_updates c k hk, hu, hv]
  rfl

/-- **C45.** Removing a number from a number of the state gives their difference. -/
theorem C45_remove_number (c : Cmd) (k : PropKind) (hk : HasKind c.prop k) (hl : k.isList = false)
    (hu : c.update = .remove) (a b : Num) (hv : c.value = .num b) :
    ∃ s, newValue c (.num a) = .ok (.num s) ∧ worth s = worth a - worth b := by
  refine ⟨a.sub b, ?_, worth_sub a b⟩
  rw [C45_updates c k hk, hu, hv]
  simp only [hl]
  rfl

/-- **C45.** Adding a list to a list of the state appends it; a list and a number cannot be added. -/
theorem C45_add_list (c : Cmd) (k : PropKind) (hk : HasKind c.prop k) (hu : c.update = .add) (a b : List Val) (n : Num) :
    (c.value = .list b → newValue c (.list a) = .ok (.list (a ++ b))) ∧
    (c.value = .num n → newValue c (.list a) = .error .typeError) ∧
    (c.value = .list b → newValue c (.num n) = .error .typeError) := by
  rw [C45_updates c k hk, C45_updates c k hk, hu]
  refine ⟨?_, ?_, ?_⟩ <;> intro h <;> rw [h] <;> rfl

/-- adding -1.5 to a score of 250.25, and removing it from it -/
def fraction (u : Update) : Cmd := ⟨view .player "score", u, .num 0, .num (.dec (-15) 1), none, .none, none⟩

example : HasKind (fraction .add).prop .score ∧ PropKind.score.isList = false :=
  ⟨⟨.player, "score", by decide +kernel, rfl⟩, rfl⟩

example : newValue (fraction .add) (.num (.dec 25025 2)) = .ok (.num (.dec 24875 2)) ∧
    newValue (fraction .remove) (.num (.dec 2485 1)) = .ok (.num (.int 250)) := by decide +kernel

/-! ### C38: the order of scores -/

theorem worth_pos (k : Nat) : (0 : ℚ) < 10 ^ k := by positivity

/-- **C38.** A score is smaller than another exactly if it is worth less. -/
theorem C38_smaller (a b : Num) : Smaller a b ↔ worth a < worth b := by
  rw [worth_eq, worth_eq, div_lt_div_iff₀ (worth_pos _) (worth_pos _), Smaller]
  exact_mod_cast Iff.rfl

/-- **C38.** The converter writes a hundred times the score of the record. -/
theorem C38_hundred (finals : List Num) (i : Nat) (a s : Num) (ha : finals[2 * i]? = some a)
    (hs : (finalScores finals)[i]? = some s) : worth s = 100 * worth a := by
  rw [(C38_converter_entries finals i).1, ha] at hs
  cases hs
  cases a with
  | int n => simp [Num.mul100, worth, mul_comm]
  | dec m k =>
    rw [Num.mul100, worth_norm, worth]
    push_cast
    ring

example : (finalScores [.dec 2505 1, .int 10, .int 300, .int (-10)])[0]? = some (.int 25050) := by decide +kernel

end Verif.Props
