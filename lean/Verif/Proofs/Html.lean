import Verif.Py.Html
import Verif.Spec.Html

/-! Reading pages: texts, escaped texts and tags, one after the other. -/
namespace Verif.Proofs
open Verif.Py Verif.Spec.Html

/-- what has been put together of a page -/
def parsed (s : Str) : Reading :=
  match lex .data s with
  | none => none
  | some tokens => tokens.foldr put (some ([], .nil))

theorem document_parsed (s : Str) (f : Forest) (h : parsed s = some ([], f)) : document s = some f := by
  unfold parsed at h
  unfold document
  cases e : lex .data s with
  | none => rw [e] at h; simp at h
  | some l =>
    rw [e] at h
    simp only at h ⊢
    rw [h]

/-- characters in front of a sequence of trees -/
def charsF (t : Str) (f : Forest) : Forest := t.foldr Forest.text f

/-- characters in front of what has been read -/
def putText (t : Str) (r : Reading) : Reading := t.foldr (fun c r => put (.chr c) r) r

theorem putText_some (t : Str) (stack : List (Str × Forest)) (f : Forest) :
    putText t (some (stack, f)) = some (stack, charsF t f) := by
  induction t with
  | nil => rfl
  | cons c t ih => simp only [putText, List.foldr_cons, charsF] at ih ⊢; rw [ih]; rfl

/-- text without tags and references -/
def noMarkup (t : Str) : Bool := t.all (fun c => decide (c ≠ '<' ∧ c ≠ '&'))

theorem parsed_map {s : Str} (tok : Token) (m : Mode) (r : Str) (h : lex m r = (lex .data s).map (tok :: ·)) :
    (match lex m r with
      | none => none
      | some tokens => tokens.foldr put (some ([], .nil))) = put tok (parsed s) := by
  rw [h]
  unfold parsed
  cases lex .data s with
  | none => cases tok <;> rfl
  | some l => rfl

theorem parsed_plain (t s : Str) (h : noMarkup t = true) : parsed (t ++ s) = putText t (parsed s) := by
  induction t with
  | nil => rfl
  | cons c t ih =>
    simp only [noMarkup, List.all_cons, Bool.and_eq_true, decide_eq_true_eq] at h
    have := ih h.2
    simp only [putText, List.foldr_cons] at this ⊢
    rw [← this]
    refine parsed_map _ _ _ ?_
    simp only [List.cons_append, lex]
    rw [if_neg h.1.1, if_neg h.1.2]

theorem lex_escapeChar (c : Char) (s : Str) : lex .data (escapeChar c ++ s) = (lex .data s).map (Token.chr c :: ·) := by
  unfold escapeChar
  by_cases h1 : c = '&'
  · subst h1; rfl
  by_cases h2 : c = '<'
  · subst h2; rfl
  by_cases h3 : c = '>'
  · subst h3; rfl
  by_cases h4 : c = '\''
  · subst h4; rfl
  by_cases h5 : c = '"'
  · subst h5; rfl
  rw [if_neg h1, if_neg h2, if_neg h3, if_neg h4, if_neg h5]
  simp only [List.cons_append, List.nil_append, lex]
  rw [if_neg h2, if_neg h1]

theorem parsed_escape (t s : Str) : parsed (escape t ++ s) = putText t (parsed s) := by
  induction t with
  | nil => rfl
  | cons c t ih =>
    simp only [putText, List.foldr_cons, escape, List.flatMap_cons, List.append_assoc] at ih ⊢
    rw [← ih]
    exact parsed_map _ _ _ (lex_escapeChar c _)

theorem parsed_nbsp (s : Str) : parsed ("&nbsp;".toList ++ s) = putText [Char.ofNat 160] (parsed s) := by
  refine parsed_map _ _ _ ?_
  rfl

/-- a tag can be read to its end: no `>` outside of quotes, and all quotes are closed -/
def closes : Option Char → Str → Bool
  | q, [] => decide (q = none)
  | none, c :: s => decide (c ≠ '>') && closes (if c = '"' ∨ c = '\'' then some c else none) s
  | some q, c :: s => closes (if c = q then none else some q) s

theorem lex_tag (raw : Str) : ∀ (q : Option Char) (seen s : Str), closes q raw = true →
    lex (.tag seen q) (raw ++ '>' :: s) = (lex .data s).map (Token.tag (seen ++ raw) :: ·) := by
  induction raw with
  | nil =>
    intro q seen s h
    simp only [closes, decide_eq_true_eq] at h
    subst h
    simp [lex]
  | cons c raw ih =>
    intro q seen s h
    cases q with
    | none =>
      simp only [closes, Bool.and_eq_true, decide_eq_true_eq] at h
      simp only [List.cons_append, lex]
      rw [if_neg h.1, ih _ _ _ h.2]
      simp
    | some q =>
      simp only [closes] at h
      simp only [List.cons_append, lex]
      rw [ih _ _ _ h]
      simp

theorem parsed_tag (raw s : Str) (h : closes none raw = true) :
    parsed (('<' :: raw ++ ['>']) ++ s) = put (.tag raw) (parsed s) := by
  refine parsed_map _ _ _ ?_
  have := lex_tag raw none [] s h
  simp only [List.nil_append] at this
  rw [← this]
  simp [lex]

/-- a tag written as a literal -/
theorem parsed_lit (lit raw : String) (h : lit.toList = '<' :: raw.toList ++ ['>'] ∧ closes none raw.toList = true) (s : Str) :
    parsed (lit.toList ++ s) = put (.tag raw.toList) (parsed s) := by
  rw [h.1]
  exact parsed_tag _ _ h.2

/-- what is put in quotes must not end them -/
theorem closes_quoted (v : Str) (h : '"' ∉ v) (rest : Str) : closes (some '"') (v ++ '"' :: rest) = closes none rest := by
  induction v with
  | nil => simp [closes]
  | cons c v ih =>
    simp only [List.mem_cons, not_or] at h
    simp only [List.cons_append, closes]
    rw [if_neg (fun e => h.1 e.symm), ih h.2]

theorem escape_no_quote (t : Str) : '"' ∉ escape t := by
  intro h
  simp only [escape, List.mem_flatMap] at h
  obtain ⟨c, _, h⟩ := h
  unfold escapeChar at h
  by_cases h1 : c = '&'
  · rw [if_pos h1] at h; revert h; decide
  rw [if_neg h1] at h
  by_cases h2 : c = '<'
  · rw [if_pos h2] at h; revert h; decide
  rw [if_neg h2] at h
  by_cases h3 : c = '>'
  · rw [if_pos h3] at h; revert h; decide
  rw [if_neg h3] at h
  by_cases h4 : c = '\''
  · rw [if_pos h4] at h; revert h; decide
  rw [if_neg h4] at h
  by_cases h5 : c = '"'
  · rw [if_pos h5] at h; revert h; decide
  rw [if_neg h5] at h
  simp only [List.mem_singleton] at h
  exact h5 h.symm

/-! ### Parts and words -/

theorem parts_ne (sep : Char) (s : Str) : ∃ p ps, parts sep s = p :: ps := by
  induction s with
  | nil => exact ⟨_, _, rfl⟩
  | cons c s ih =>
    obtain ⟨p, ps, e⟩ := ih
    simp only [parts, e]
    split <;> exact ⟨_, _, rfl⟩

theorem parts_none (sep : Char) (s : Str) (h : sep ∉ s) : parts sep s = [s] := by
  induction s with
  | nil => rfl
  | cons c s ih =>
    simp only [List.mem_cons, not_or] at h
    simp only [parts, ih h.2]
    rw [if_neg (fun e => h.1 e.symm)]

theorem parts_append (sep : Char) (s t : Str) (h : sep ∉ s) : parts sep (s ++ sep :: t) = s :: parts sep t := by
  induction s with
  | nil =>
    obtain ⟨p, ps, e⟩ := parts_ne sep t
    simp [parts, e]
  | cons c s ih =>
    simp only [List.mem_cons, not_or] at h
    simp only [List.cons_append, parts, ih h.2]
    rw [if_neg (fun e => h.1 e.symm)]

theorem parts_glue (sep : Char) (s t : Str) : parts sep (s ++ sep :: t) = parts sep s ++ parts sep t := by
  induction s with
  | nil =>
    obtain ⟨p, ps, e⟩ := parts_ne sep t
    simp [parts, e]
  | cons c s ih =>
    obtain ⟨p, ps, e⟩ := parts_ne sep s
    simp only [List.cons_append, parts, ih, e]
    split <;> simp

theorem words_blank (a b : Str) (c : Char) (h : blank c = true) : words (a ++ c :: b) = words a ++ words b := by
  unfold words
  simp only [List.map_append, List.map_cons]
  rw [if_pos h, parts_glue, List.filter_append]

theorem words_nil : words [] = [] := rfl

theorem words_cons (b : Str) (c : Char) (h : blank c = true) : words (c :: b) = words b := by
  have := words_blank [] b c h
  simpa [words_nil] using this

theorem words_one (w : Str) (h0 : w ≠ []) (h : ∀ c ∈ w, blank c = false) : words w = [w] := by
  unfold words
  have e : w.map (fun c => if blank c then ' ' else c) = w := by
    refine (List.map_congr_left (g := id) (fun c hc => ?_)).trans (List.map_id w)
    simp [h c hc]
  rw [e, parts_none]
  · simp [h0]
  · intro hm
    have := h _ hm
    simp [blank] at this

/-! ### Looking up after characters -/

theorem charsF_nil (f : Forest) : charsF [] f = f := rfl
theorem charsF_cons (c : Char) (t : Str) (f : Forest) : charsF (c :: t) f = .text c (charsF t f) := rfl

theorem children_charsF (name : String) (t : Str) (f : Forest) : (charsF t f).children name = f.children name := by
  induction t with
  | nil => rfl
  | cons c t ih => simpa [charsF_cons, Forest.children] using ih

theorem content_charsF (t : Str) (f : Forest) : (charsF t f).content = t ++ f.content := by
  induction t with
  | nil => rfl
  | cons c t ih => simp [charsF_cons, Forest.content, ih]

theorem pictures_charsF (t : Str) (f : Forest) : (charsF t f).pictures = f.pictures := by
  induction t with
  | nil => rfl
  | cons c t ih => simpa [charsF_cons, Forest.pictures] using ih

theorem tags_charsF (t : Str) (f : Forest) : (charsF t f).tags = f.tags := by
  induction t with
  | nil => rfl
  | cons c t ih => simpa [charsF_cons, Forest.tags] using ih

theorem resolved_append (t s : Str) (h : noMarkup t = true) : resolved (t ++ s) = (resolved s).map (t ++ ·) := by
  induction t with
  | nil => simp
  | cons c t ih =>
    simp only [noMarkup, List.all_cons, Bool.and_eq_true, decide_eq_true_eq] at h
    have := ih h.2
    unfold resolved at this ⊢
    simp only [List.cons_append, lex]
    rw [if_neg h.1.1, if_neg h.1.2]
    cases e : lex .data (t ++ s) with
    | none =>
      rw [e] at this
      cases e' : lex .data s with
      | none => simp
      | some l => rw [e'] at this; simp at this
    | some l =>
      rw [e] at this
      cases e' : lex .data s with
      | none => rw [e'] at this; simp at this
      | some l' =>
        rw [e'] at this
        simp only [Option.map_some, Option.some.injEq] at this ⊢
        simp [this]

theorem resolved_escape (t s : Str) : resolved (escape t ++ s) = (resolved s).map (t ++ ·) := by
  induction t with
  | nil => simp [escape]
  | cons c t ih =>
    unfold resolved at ih ⊢
    simp only [escape, List.flatMap_cons, List.append_assoc] at ih ⊢
    rw [lex_escapeChar]
    cases e : lex .data (List.flatMap escapeChar t ++ s) with
    | none =>
      rw [e] at ih
      cases e' : lex .data s with
      | none => simp
      | some l => rw [e'] at ih; simp at ih
    | some l =>
      rw [e] at ih
      cases e' : lex .data s with
      | none => rw [e'] at ih; simp at ih
      | some l' =>
        rw [e'] at ih
        simp only [Option.map_some, Option.some.injEq] at ih ⊢
        simp [ih]

theorem resolved_nil : resolved [] = some [] := rfl

end Verif.Proofs
