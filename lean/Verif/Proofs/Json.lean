import Verif.Spec.Command
import Verif.Proofs.Str

/-! `jsonLoads` reads back what `jsonDumps` writes. -/
namespace Verif.Proofs
open Verif.Py Verif.Model Verif.Spec

/-! ### strings -/

theorem hexVal_hexDigit : ∀ n < 16, hexVal (hexDigit n) = some n := by decide

theorem hex4_uEscape (n : Nat) (h : n < 65536) (r : Str) :
    hex4 (hexDigit (n / 4096 % 16) :: hexDigit (n / 256 % 16) :: hexDigit (n / 16 % 16) :: hexDigit (n % 16) :: r) =
      some (n, r) := by
  rw [hex4]
  rw [hexVal_hexDigit _ (Nat.mod_lt _ (by omega)), hexVal_hexDigit _ (Nat.mod_lt _ (by omega)),
    hexVal_hexDigit _ (Nat.mod_lt _ (by omega)), hexVal_hexDigit _ (Nat.mod_lt _ (by omega))]
  simp only [Option.some.injEq, Prod.mk.injEq, and_true]
  omega

theorem char_not_surrogate (c : Char) : ¬ (55296 ≤ c.toNat ∧ c.toNat ≤ 57343) ∧ c.toNat < 1114112 := by
  have := c.valid
  simp only [UInt32.isValidChar, Nat.isValidChar] at this
  simp only [Char.toNat]
  omega

theorem scan_u (f : Nat) (ch : Char) (r r' : Str) (h : uChar r = some (ch, r')) :
    scanString (f + 1) ('\\' :: 'u' :: r) = (scanString f r').map (fun p => (ch :: p.1, p.2)) := by
  rw [scanString, if_neg (by decide), if_pos rfl]
  simp only [if_true, h]

theorem uChar_bmp (c : Char) (h : c.toNat < 65536) (rest : Str) (ds : Str) (hd : uEscape c.toNat = '\\' :: 'u' :: ds) :
    uChar (ds ++ rest) = some (c, rest) := by
  have hs := char_not_surrogate c
  simp only [uEscape, List.cons.injEq, true_and] at hd
  subst hd
  simp only [List.cons_append, List.nil_append]
  rw [uChar, hex4_uEscape _ h]
  simp only
  rw [if_neg (by omega), if_neg (by omega), Char.ofNat_toNat]

theorem surrogate_join (n : Nat) (h1 : 65536 ≤ n) (h2 : n < 1114112) :
    65536 + (55296 + (n - 65536) / 1024 % 1024 - 55296) * 1024 + (56320 + (n - 65536) % 1024 - 56320) = n := by
  omega

theorem uChar_astral (c : Char) (h : ¬ c.toNat < 65536) (rest : Str) (ds es : Str)
    (hd : uEscape (55296 + (c.toNat - 65536) / 1024 % 1024) = '\\' :: 'u' :: ds)
    (he : uEscape (56320 + (c.toNat - 65536) % 1024) = '\\' :: 'u' :: es) :
    uChar (ds ++ ('\\' :: 'u' :: es ++ rest)) = some (c, rest) := by
  have hs := char_not_surrogate c
  have hj := surrogate_join c.toNat (by omega) hs.2
  have ha : 55296 + (c.toNat - 65536) / 1024 % 1024 ≤ 56319 := by omega
  have hb : 56320 + (c.toNat - 65536) % 1024 ≤ 57343 := by omega
  have ha' : 55296 ≤ 55296 + (c.toNat - 65536) / 1024 % 1024 := by omega
  have hb' : 56320 ≤ 56320 + (c.toNat - 65536) % 1024 := by omega
  generalize 55296 + (c.toNat - 65536) / 1024 % 1024 = a at *
  generalize 56320 + (c.toNat - 65536) % 1024 = b at *
  simp only [uEscape, List.cons.injEq, true_and] at hd he
  subst hd he
  simp only [List.cons_append, List.nil_append]
  rw [uChar, hex4_uEscape _ (by omega)]
  simp only
  rw [if_pos ⟨ha', ha⟩, hex4_uEscape _ (by omega)]
  simp only
  rw [if_pos ⟨hb', hb⟩, hj, Char.ofNat_toNat]

theorem scan_plain (f : Nat) (c : Char) (rest : Str) (h1 : c ≠ '"') (h2 : c ≠ '\\') (h3 : 32 ≤ c.toNat) :
    scanString (f + 1) (c :: rest) = (scanString f rest).map (fun p => (c :: p.1, p.2)) := by
  rw [scanString.eq_def]
  simp only [h1, h2, if_false]
  rw [if_neg (by omega)]

theorem scan_char (f : Nat) (c : Char) (rest : Str) :
    scanString (f + 1) (jsonChar c ++ rest) = (scanString f rest).map (fun p => (c :: p.1, p.2)) := by
  unfold jsonChar
  split
  · next h => subst h; simp [scanString]
  split
  · next h => subst h; simp [scanString]
  split
  · next h => subst h; simp [scanString]
  split
  · next h => subst h; simp [scanString]
  split
  · next h => subst h; simp [scanString]
  split
  · next h => subst h; simp [scanString]
  split
  · next h => subst h; simp [scanString]
  split
  · next h1 h2 _ _ _ _ _ h =>
    exact scan_plain f c rest h1 h2 h.1
  split
  · next h =>
    rw [show uEscape c.toNat ++ rest = '\\' :: 'u' :: ((uEscape c.toNat).tail.tail ++ rest) from rfl]
    exact scan_u f c _ _ (uChar_bmp c h rest _ rfl)
  · next h =>
    exact scan_u f c _ _ (uChar_astral c h rest _ _ rfl rfl)

theorem scan_str (s rest : Str) (f : Nat) (hf : s.length < f) :
    scanString f (s.flatMap jsonChar ++ '"' :: rest) = some (s, rest) := by
  induction s generalizing f with
  | nil =>
    obtain ⟨f, rfl⟩ : ∃ g, f = g + 1 := ⟨f - 1, by simp at hf; omega⟩
    simp [scanString]
  | cons c s ih =>
    obtain ⟨f, rfl⟩ : ∃ g, f = g + 1 := ⟨f - 1, by simp at hf; omega⟩
    rw [List.flatMap_cons, List.append_assoc, scan_char, ih f (by simp at hf; omega)]
    rfl

theorem jsonChar_length (c : Char) : 1 ≤ (jsonChar c).length := by
  unfold jsonChar
  repeat' split
  all_goals simp [uEscape]

theorem flatMap_jsonChar_length (s : Str) : s.length ≤ (s.flatMap jsonChar).length := by
  induction s with
  | nil => simp
  | cons c s ih =>
    rw [List.flatMap_cons, List.length_append, List.length_cons]
    have := jsonChar_length c
    omega

/-! ### numbers -/

/-- what may follow a number -/
def NumEnd (rest : Str) : Prop := ∀ c ∈ rest.head?, isDigit c = false ∧ c ≠ '.'

theorem natDigits_zero : natDigits 0 = ['0'] := by decide

theorem natDigits_head (n : Nat) (h : n ≠ 0) : ∃ c t, natDigits n = c :: t ∧ c ≠ '0' := by
  induction n using digits_ind with
  | h1 n hn =>
    exact ⟨_, [], natDigits_lt hn, (by decide : ∀ n < 10, n ≠ 0 → Char.ofNat (48 + n) ≠ '0') n hn h⟩
  | h2 n hn ih =>
    obtain ⟨c, t, e, hc⟩ := ih (by omega)
    exact ⟨c, t ++ [Char.ofNat (48 + n % 10)], by rw [natDigits_ge hn, e]; rfl, hc⟩

theorem head_cons_digit {s : Str} (h : ∀ c ∈ s, isDigit c = true) (rest : Str) (hr : ∀ c ∈ rest.head?, isDigit c = false) :
    (s ++ rest).takeWhile isDigit = s ∧ (s ++ rest).dropWhile isDigit = rest := by
  induction s with
  | nil =>
    cases rest with
    | nil => simp
    | cons c r =>
      have := hr c (by simp)
      simp [this]
  | cons c s ih =>
    have hc := h c (by simp)
    have ih := ih (fun d hd => h d (by simp [hd]))
    simp only [List.cons_append, List.takeWhile_cons, List.dropWhile_cons, hc, if_true]
    exact ⟨by rw [ih.1], ih.2⟩

/-- digits with no superfluous leading zero -/
def WholeDigits (s : Str) : Prop := s ≠ [] ∧ (∀ c ∈ s, isDigit c = true) ∧ (s.head? = some '0' → s = ['0'])

theorem scanWhole_eq {s : Str} (h : WholeDigits s) (rest : Str) (hr : ∀ c ∈ rest.head?, isDigit c = false) :
    scanWhole (s ++ rest) = some (s, rest) := by
  obtain ⟨h1, h2, h3⟩ := h
  cases s with
  | nil => simp at h1
  | cons c t =>
    rw [List.cons_append, scanWhole]
    by_cases hc : c = '0'
    · subst hc
      have : t = [] := by simpa using h3 rfl
      subst this
      simp
    · rw [if_neg hc, if_pos (h2 c (by simp))]
      have := head_cons_digit (s := t) (fun d hd => h2 d (by simp [hd])) rest hr
      rw [this.1, this.2]

theorem natDigits_whole (n : Nat) : WholeDigits (natDigits n) := by
  refine ⟨natDigits_ne_nil n, natDigits_all n, ?_⟩
  by_cases h : n = 0
  · subst h; intro; exact natDigits_zero
  · obtain ⟨c, t, e, hc⟩ := natDigits_head n h
    rw [e]
    intro h
    simp at h
    exact absurd h hc

theorem not_minus_of_digit {c : Char} (h : isDigit c = true) : c ≠ '-' := isDigit_ne h (by decide)

theorem scanNumber_neg (s : Str) : scanNumber ('-' :: s) = scanAbs true s := by
  rw [scanNumber, if_pos rfl]

theorem scanNumber_pos (c : Char) (s : Str) (h : c ≠ '-') : scanNumber (c :: s) = scanAbs false (c :: s) := by
  rw [scanNumber, if_neg h]

theorem scanAbs_int (neg : Bool) (s rest : Str) (h : WholeDigits s) (hr : NumEnd rest) :
    scanAbs neg (s ++ rest) = some (.int (if neg then -(digitsVal 0 s) else digitsVal 0 s), rest) := by
  unfold scanAbs
  rw [scanWhole_eq h rest (fun c hc => (hr c hc).1)]
  cases rest with
  | nil => rfl
  | cons c r =>
    have : c ≠ '.' := (hr c (by simp)).2
    simp [this]

theorem scanAbs_dec (neg : Bool) (s t rest : Str) (h : WholeDigits s) (ht : t ≠ []) (ht' : ∀ c ∈ t, isDigit c = true)
    (hr : NumEnd rest) :
    scanAbs neg (s ++ '.' :: (t ++ rest)) =
      some (Num.norm (if neg then -(digitsVal 0 (s ++ t)) else digitsVal 0 (s ++ t)) t.length, rest) := by
  unfold scanAbs
  rw [scanWhole_eq h _ (by intro c hc; simp at hc; subst hc; decide)]
  have := head_cons_digit ht' rest (fun c hc => (hr c hc).1)
  simp only [this.1, this.2, ht, if_false]

theorem digitsVal_zeros (n : Nat) (s : Str) : digitsVal 0 (List.replicate n '0' ++ s) = digitsVal 0 s := by
  induction n with
  | zero => rfl
  | succ n ih =>
    rw [List.replicate_succ, List.cons_append, digitsVal]
    exact ih

theorem padded_facts (n k : Nat) :
    let ds := natDigits n
    let p := List.replicate (k + 1 - ds.length) '0' ++ ds
    k + 1 ≤ p.length ∧ (∀ c ∈ p, isDigit c = true) ∧ digitsVal 0 p = n ∧ WholeDigits (p.take (p.length - k)) := by
  intro ds p
  have hl : k + 1 ≤ p.length := by simp only [p, List.length_append, List.length_replicate]; omega
  have ha : ∀ c ∈ p, isDigit c = true := by
    intro c hc
    rcases List.mem_append.mp hc with h | h
    · rw [(List.mem_replicate.mp h).2]; decide
    · exact natDigits_all n c h
  refine ⟨hl, ha, ?_, ?_, ?_, ?_⟩
  · simp only [p, digitsVal_zeros, ds, digitsVal_natDigits]
  · intro h
    have := congrArg List.length h
    simp only [List.length_take, List.length_nil] at this
    omega
  · intro c hc
    exact ha c (List.mem_of_mem_take hc)
  · intro h
    by_cases hk : ds.length ≤ k
    · have e : p.length = k + 1 := by simp only [p, List.length_append, List.length_replicate]; omega
      have e2 : p.length - k = 1 := by omega
      rw [e2] at h ⊢
      cases hp : p with
      | nil => rw [hp] at hl; simp at hl
      | cons a t =>
        rw [hp] at h
        simp at h
        simp [h]
    · have e : p = ds := by
        simp only [p]
        rw [show k + 1 - ds.length = 0 by omega]
        rfl
      rw [e] at h ⊢
      have hw := natDigits_whole n
      have : (ds.take (ds.length - k)).head? = ds.head? := by
        cases hd : ds with
        | nil => simp
        | cons a t =>
          rw [hd] at hk
          obtain ⟨j, hj⟩ : ∃ j, (a :: t).length - k = j + 1 := ⟨(a :: t).length - k - 1, by omega⟩
          rw [hj]
          simp
      rw [this] at h
      have := hw.2.2 h
      rw [show ds = ['0'] from this]
      have hl1 : ds.length = 1 := by rw [show ds = ['0'] from this]; rfl
      have : k = 0 := by omega
      subst this
      simp

theorem norm_wf {m : Int} {k : Nat} (h1 : 1 ≤ k) (h2 : m % 10 ≠ 0) : Num.norm m k = .dec m k := by
  obtain ⟨k, rfl⟩ : ∃ j, k = j + 1 := ⟨k - 1, by omega⟩
  rw [Num.norm, if_neg h2]

theorem cons_of_whole {s : Str} (h : WholeDigits s) : ∃ c t, s = c :: t ∧ c ≠ '-' := by
  cases s with
  | nil => exact absurd rfl h.1
  | cons c t => exact ⟨c, t, rfl, not_minus_of_digit (h.2.1 c (by simp))⟩

theorem scan_num (n : Num) (h : NumOk n) (rest : Str) (hr : NumEnd rest) :
    scanNumber (numText n ++ rest) = some (n, rest) := by
  cases n with
  | int n =>
    rw [numText, pyStrInt]
    split
    · next hn =>
      rw [List.cons_append, scanNumber_neg, scanAbs_int _ _ _ (natDigits_whole _) hr, digitsVal_natDigits]
      simp only [if_true, Option.some.injEq, Prod.mk.injEq, Num.int.injEq, and_true]
      omega
    · next hn =>
      obtain ⟨c, t, e, hc⟩ := cons_of_whole (natDigits_whole n.natAbs)
      have e2 : natDigits n.natAbs ++ rest = c :: (t ++ rest) := by rw [e]; rfl
      rw [e2, scanNumber_pos _ _ hc, ← e2, scanAbs_int _ _ _ (natDigits_whole _) hr, digitsVal_natDigits]
      simp only [Bool.false_eq_true, if_false, Option.some.injEq, Prod.mk.injEq, Num.int.injEq, and_true]
      omega
  | dec m k =>
    obtain ⟨h1, h2⟩ := h
    have hp := padded_facts m.natAbs k
    simp only at hp
    rw [numText, decText]
    generalize List.replicate (k + 1 - (natDigits m.natAbs).length) '0' ++ natDigits m.natAbs = p at hp
    obtain ⟨hl, ha, hv, hw⟩ := hp
    have hdrop : p.drop (p.length - k) ≠ [] := by
      intro h
      have := congrArg List.length h
      simp only [List.length_drop, List.length_nil] at this
      omega
    have hlen : (p.drop (p.length - k)).length = k := by simp only [List.length_drop]; omega
    have hda : ∀ c ∈ p.drop (p.length - k), isDigit c = true := fun c hc => ha c (List.mem_of_mem_drop hc)
    split
    · next hm =>
      simp only [List.cons_append, List.nil_append, List.append_assoc]
      rw [scanNumber_neg, scanAbs_dec _ _ _ _ hw hdrop hda hr, List.take_append_drop, hv, hlen]
      simp only [if_true]
      rw [show -((m.natAbs : Nat) : Int) = m by omega, norm_wf h1 h2]
    · next hm =>
      simp only [List.cons_append, List.nil_append, List.append_assoc]
      obtain ⟨c, t, e, hc⟩ := cons_of_whole hw
      have e2 : ∀ r, p.take (p.length - k) ++ r = c :: (t ++ r) := by intro r; rw [e]; rfl
      rw [e2, scanNumber_pos _ _ hc, ← e2, scanAbs_dec _ _ _ _ hw hdrop hda hr, List.take_append_drop, hv, hlen]
      simp only [Bool.false_eq_true, if_false]
      rw [show ((m.natAbs : Nat) : Int) = m by omega, norm_wf h1 h2]

/-! ### values -/

mutual
/-- nesting and length: the calls the parser needs -/
def need : Val → Nat
  | .list l => needs l + 1
  | _ => 1
def needs : List Val → Nat
  | [] => 0
  | v :: l => max (need v) (needs l) + 1
end

theorem jsonStr_append (s rest : Str) : jsonStr s ++ rest = '"' :: (s.flatMap jsonChar ++ '"' :: rest) := by
  simp [jsonStr]

/-- a text that begins a number -/
theorem numText_head (n : Num) : ∃ c t, numText n = c :: t ∧ (c = '-' ∨ isDigit c = true) := by
  cases n with
  | int n =>
    rw [numText, pyStrInt]
    split
    · exact ⟨_, _, rfl, .inl rfl⟩
    · cases h : natDigits n.natAbs with
      | nil => exact absurd h (natDigits_ne_nil _)
      | cons c t => exact ⟨c, t, rfl, .inr (natDigits_all n.natAbs c (by rw [h]; simp))⟩
  | dec m k =>
    have hp := padded_facts m.natAbs k
    simp only at hp
    rw [numText, decText]
    generalize List.replicate (k + 1 - (natDigits m.natAbs).length) '0' ++ natDigits m.natAbs = p at hp
    obtain ⟨hl, ha, hv, hw⟩ := hp
    split
    · exact ⟨_, _, rfl, .inl rfl⟩
    · obtain ⟨c, t, e, hc⟩ := cons_of_whole hw
      refine ⟨c, t ++ '.' :: p.drop (p.length - k), by rw [e]; rfl, .inr (hw.2.1 c (by rw [e]; simp))⟩

theorem parse_num (f : Nat) (n : Num) (h : NumOk n) (rest : Str) (hr : NumEnd rest) :
    parseVal (f + 1) (numText n ++ rest) = some (.num n, rest) := by
  obtain ⟨c, t, e, hc⟩ := numText_head n
  have e2 : numText n ++ rest = c :: (t ++ rest) := by rw [e]; rfl
  have hne : c ≠ '"' ∧ c ≠ '[' ∧ c ≠ 'n' ∧ c ≠ 't' ∧ c ≠ 'f' := by
    rcases hc with rfl | hc
    · decide
    · exact ⟨isDigit_ne hc (by decide), isDigit_ne hc (by decide), isDigit_ne hc (by decide),
        isDigit_ne hc (by decide), isDigit_ne hc (by decide)⟩
  rw [e2, parseVal, if_neg hne.1, if_neg hne.2.1]
  rw [if_neg, if_neg, if_neg, ← e2, scan_num n h rest hr]
  · rfl
  · intro h
    have := congrArg List.head? h
    have e3 : "false".toList = ['f', 'a', 'l', 's', 'e'] := by decide +kernel
    rw [e3] at this
    simp only [List.take_succ_cons, List.head?_cons, Option.some.injEq] at this
    exact hne.2.2.2.2 this
  · intro h
    have := congrArg List.head? h
    have e3 : "true".toList = ['t', 'r', 'u', 'e'] := by decide +kernel
    rw [e3] at this
    simp only [List.take_succ_cons, List.head?_cons, Option.some.injEq] at this
    exact hne.2.2.2.1 this
  · intro h
    have := congrArg List.head? h
    have e3 : "null".toList = ['n', 'u', 'l', 'l'] := by decide +kernel
    rw [e3] at this
    simp only [List.take_succ_cons, List.head?_cons, Option.some.injEq] at this
    exact hne.2.2.1 this

/-- a value's text does not start with space or a closing bracket -/
theorem dumps_head (v : Val) : ∃ c t, jsonDumps v = c :: t ∧ jsonSpace c = false ∧ c ≠ ']' := by
  cases v with
  | none => exact ⟨'n', ['u', 'l', 'l'], by rw [jsonDumps]; decide +kernel, by decide, by decide⟩
  | bool b =>
    cases b
    · exact ⟨'f', ['a', 'l', 's', 'e'], by rw [jsonDumps]; decide +kernel, by decide, by decide⟩
    · exact ⟨'t', ['r', 'u', 'e'], by rw [jsonDumps]; decide +kernel, by decide, by decide⟩
  | num n =>
    obtain ⟨c, t, e, hc⟩ := numText_head n
    refine ⟨c, t, by rw [jsonDumps, e], ?_⟩
    rcases hc with rfl | hc
    · decide
    · refine ⟨?_, isDigit_ne hc (by decide)⟩
      simp only [jsonSpace, isDigit_ne hc (show isDigit ' ' = false by decide), isDigit_ne hc (show isDigit '\t' = false by decide),
        isDigit_ne hc (show isDigit '\n' = false by decide), isDigit_ne hc (show isDigit '\r' = false by decide)]
      decide
  | str s => exact ⟨'"', _, by rw [jsonDumps, jsonStr]; rfl, by decide, by decide⟩
  | list l =>
    cases l with
    | nil => exact ⟨'[', [']'], by rw [jsonDumps]; decide +kernel, by decide, by decide⟩
    | cons v l => exact ⟨'[', _, by rw [jsonDumps], by decide, by decide⟩

theorem skipSpace_dumps (v : Val) (rest : Str) : skipSpace (jsonDumps v ++ rest) = jsonDumps v ++ rest := by
  obtain ⟨c, t, e, hc, _⟩ := dumps_head v
  rw [e, skipSpace, List.cons_append, List.dropWhile_cons, hc]
  simp

theorem numEnd_items (l : List Val) (rest : Str) : NumEnd (jsonItems l ++ rest) := by
  cases l with
  | nil => intro c hc; simp [jsonItems] at hc; subst hc; decide
  | cons v l => intro c hc; simp [jsonItems] at hc; subst hc; decide

theorem skipSpace_nonspace {c : Char} (h : jsonSpace c = false) (s : Str) : skipSpace (c :: s) = c :: s := by
  rw [skipSpace, List.dropWhile_cons, h]
  simp

mutual
theorem parse_val (v : Val) (f : Nat) (hf : need v ≤ f) (hv : ValOk v) (rest : Str) (hr : NumEnd rest) :
    parseVal f (jsonDumps v ++ rest) = some (v, rest) := by
  cases v with
  | none =>
    obtain ⟨f, rfl⟩ : ∃ g, f = g + 1 := ⟨f - 1, by simp [need] at hf; omega⟩
    rw [jsonDumps, show "null".toList = ['n', 'u', 'l', 'l'] by decide +kernel]
    simp [parseVal]
  | bool b =>
    obtain ⟨f, rfl⟩ : ∃ g, f = g + 1 := ⟨f - 1, by simp [need] at hf; omega⟩
    cases b
    · rw [jsonDumps, show "false".toList = ['f', 'a', 'l', 's', 'e'] by decide +kernel]
      simp [parseVal]
    · rw [jsonDumps, show "true".toList = ['t', 'r', 'u', 'e'] by decide +kernel]
      simp [parseVal]
  | num n =>
    obtain ⟨f, rfl⟩ : ∃ g, f = g + 1 := ⟨f - 1, by simp [need] at hf; omega⟩
    rw [jsonDumps]
    exact parse_num f n (by simpa [ValOk] using hv) rest hr
  | str s =>
    obtain ⟨f, rfl⟩ : ∃ g, f = g + 1 := ⟨f - 1, by simp [need] at hf; omega⟩
    rw [jsonDumps, jsonStr_append, parseVal, if_pos rfl, scan_str s rest]
    · rfl
    · have := flatMap_jsonChar_length s
      simp only [List.length_append, List.length_cons]
      omega
  | list l =>
    obtain ⟨f, rfl⟩ : ∃ g, f = g + 1 := ⟨f - 1, by simp [need] at hf; omega⟩
    cases l with
    | nil =>
      rw [jsonDumps, show "[]".toList = ['[', ']'] by decide +kernel]
      simp [parseVal, skipSpace, jsonSpace]
    | cons v l =>
      rw [ValOk, ValsOk] at hv
      rw [need, needs] at hf
      obtain ⟨g, rfl⟩ : ∃ g, f = g + 1 := ⟨f - 1, by omega⟩
      have e : jsonDumps (.list (v :: l)) ++ rest = '[' :: (jsonDumps v ++ (jsonItems l ++ rest)) := by
        rw [jsonDumps]; simp
      rw [e, parseVal, if_neg (by decide), if_pos rfl, skipSpace_dumps]
      have hi : parseItems (g + 1) (jsonDumps v ++ (jsonItems l ++ rest)) = some (v :: l, rest) := by
        rw [parseItems, parse_val v g (by omega) hv.1 _ (numEnd_items l rest)]
        exact parse_items v l g (by omega) hv.2 rest
      obtain ⟨c, t, e2, _, hc⟩ := dumps_head v
      rw [e2, List.cons_append] at hi ⊢
      split
      · next heq => injection heq with h1 _; exact absurd h1 hc
      · rw [hi]; rfl
theorem parse_items (v : Val) (l : List Val) (f : Nat) (hf : needs l ≤ f) (hl : ValsOk l) (rest : Str) :
    (match skipSpace (jsonItems l ++ rest) with
      | c :: r' =>
        if c = ']' then some ([v], r')
        else if c = ',' then (parseItems f (skipSpace r')).map (fun p => (v :: p.1, p.2))
        else none
      | [] => none) = some (v :: l, rest) := by
  cases l with
  | nil =>
    rw [jsonItems, List.cons_append, skipSpace_nonspace (by decide)]
    simp
  | cons w l =>
    rw [needs] at hf
    rw [ValsOk] at hl
    obtain ⟨g, rfl⟩ : ∃ g, f = g + 1 := ⟨f - 1, by omega⟩
    have e : jsonItems (w :: l) ++ rest = ',' :: ' ' :: (jsonDumps w ++ (jsonItems l ++ rest)) := by
      rw [jsonItems]; simp
    rw [e, skipSpace_nonspace (by decide)]
    simp only [show ¬ (',' = ']') by decide, if_false, if_true]
    have e2 : skipSpace (' ' :: (jsonDumps w ++ (jsonItems l ++ rest))) = jsonDumps w ++ (jsonItems l ++ rest) := by
      rw [skipSpace, List.dropWhile_cons, if_pos (by decide)]
      exact skipSpace_dumps w _
    rw [e2, parseItems, parse_val w g (by omega) hl.1 _ (numEnd_items l rest)]
    exact congrArg (Option.map (fun p : List Val × Str => (v :: p.1, p.2))) (parse_items w l g (by omega) hl.2 rest)
end

mutual
theorem need_le (v : Val) : need v ≤ (jsonDumps v).length + 1 := by
  cases v with
  | none => simp [need]
  | bool b => simp [need]
  | num n => simp [need]
  | str s => simp [need]
  | list l =>
    cases l with
    | nil => simp [need, needs]
    | cons v l =>
      have h1 := need_le v
      have h2 := needs_le l
      rw [need, needs, jsonDumps]
      simp only [List.length_cons, List.length_append]
      have h3 : 1 ≤ (jsonItems l).length := by cases l <;> simp [jsonItems]
      obtain ⟨c, t, e, _⟩ := dumps_head v
      have h4 : 1 ≤ (jsonDumps v).length := by rw [e]; simp
      omega
theorem needs_le (l : List Val) : needs l ≤ (jsonItems l).length := by
  cases l with
  | nil => simp [needs]
  | cons v l =>
    have h1 := need_le v
    have h2 := needs_le l
    rw [needs, jsonItems]
    simp only [List.length_cons, List.length_append]
    omega
end

theorem loads_dumps (v : Val) (h : ValOk v) : jsonLoads (jsonDumps v) = .ok v := by
  have h1 := parse_val v ((jsonDumps v).length + 1) (need_le v) h [] (by intro c hc; simp at hc)
  have h2 := skipSpace_dumps v []
  rw [List.append_nil] at h1 h2
  rw [jsonLoads, h2, h1]
  simp [skipSpace]

end Verif.Proofs
