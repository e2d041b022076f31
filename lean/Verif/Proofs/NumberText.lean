import Verif.Proofs.Number

/-! Every text that `int` and `float` take for a number: white space around it, underscores between digits, exponents. -/
namespace Verif.Proofs
open Verif.Py Verif.Model Verif.Spec

theorem dropWhile_none {p : Char → Bool} {s : Str} (h : ∀ c ∈ s, p c = false) : s.dropWhile p = s := by
  cases s with
  | nil => rfl
  | cons c t => simp [h c (by simp)]

theorem dropWhile_stop {p : Char → Bool} {s : Str} {c : Char} {t : Str} (h : s.dropWhile p = c :: t) : p c = false := by
  induction s with
  | nil => cases h
  | cons x s ih =>
    rw [List.dropWhile_cons] at h
    split at h
    · exact ih h
    · rename_i hx
      cases h
      simpa using hx

theorem dropWhile_pad {p : Char → Bool} {a s : Str} (ha : ∀ c ∈ a, p c = true) : (a ++ s).dropWhile p = s.dropWhile p := by
  induction a with
  | nil => rfl
  | cons c a ih =>
    rw [List.cons_append, List.dropWhile_cons, if_pos (ha c (by simp))]
    exact ih fun x hx => ha x (by simp [hx])

theorem isSpace_iff (c : Char) : isSpace c = true ↔ White c := by
  unfold isSpace White whiteCodes
  simp only [List.mem_cons, List.not_mem_nil, or_false]
  generalize c.toNat = n
  split
  · simp only [Bool.or_eq_true, Bool.and_eq_true, decide_eq_true_eq]
    omega
  · split
    · simp only [Bool.false_eq_true, false_iff]
      omega
    · simp only [Bool.or_eq_true, Bool.and_eq_true, decide_eq_true_eq, beq_iff_eq]
      omega

theorem strip_padded {s t : Str} (h : Padded s t) (ht : ∀ c ∈ t, isSpace c = false) : stripSpace s = t := by
  obtain ⟨a, b, rfl, ha, hb⟩ := h
  simp only [← isSpace_iff] at ha hb
  have hb' : ∀ c ∈ b.reverse, isSpace c = true := fun c hc => hb c (by simpa using hc)
  unfold stripSpace
  rw [List.append_assoc, dropWhile_pad ha]
  cases t with
  | nil =>
    have : b.dropWhile isSpace = [] := by
      have := dropWhile_pad (s := []) hb
      rwa [List.append_nil] at this
    rw [List.nil_append, this]
    rfl
  | cons c t =>
    rw [List.cons_append, List.dropWhile_cons, if_neg (by simp [ht c (by simp)]), ← List.cons_append,
      List.reverse_append, dropWhile_pad hb',
      dropWhile_none (fun x hx => ht x (by simpa [or_comm] using hx)), List.reverse_reverse]

theorem padded_strip (s : Str) : Padded s (stripSpace s) := by
  refine ⟨s.takeWhile isSpace, ((s.dropWhile isSpace).reverse.takeWhile isSpace).reverse, ?_, ?_, ?_⟩
  · unfold stripSpace
    rw [List.append_assoc, ← List.reverse_append, List.takeWhile_append_dropWhile, List.reverse_reverse,
      List.takeWhile_append_dropWhile]
  · intro c hc; rw [← isSpace_iff]; exact List.all_eq_true.mp List.all_takeWhile c hc
  · intro c hc
    rw [← isSpace_iff]
    rw [List.mem_reverse] at hc
    exact List.all_eq_true.mp List.all_takeWhile c hc

/-- what may stand before the rest of a text: `prev` says whether a digit does -/
def GroupedFrom (prev : Bool) (s t : Str) : Prop :=
  t = s.filter (fun c => c ≠ '_') ∧ ∀ a b, s = a ++ '_' :: b →
    ((a = [] ∧ prev = true) ∨ ∃ a' d, a = a' ++ [d] ∧ isDigit d = true) ∧ ∃ d b', b = d :: b' ∧ isDigit d = true

theorem drop_grouped (s : Str) : ∀ (prev : Bool) (t : Str), dropUnderscores prev s = some t ↔ GroupedFrom prev s t := by
  induction s with
  | nil =>
    intro prev t
    constructor
    · intro h
      cases h
      exact ⟨rfl, fun a b hab => by simp at hab⟩
    · rintro ⟨rfl, -⟩
      rfl
  | cons c s ih =>
    intro prev t
    rw [dropUnderscores.eq_def]
    simp only
    by_cases hc : c = '_'
    · subst hc
      simp only [if_true]
      cases s with
      | nil =>
        simp only [reduceCtorEq, false_iff]
        rintro ⟨-, h⟩
        obtain ⟨-, d, b', hb, -⟩ := h [] [] rfl
        cases hb
      | cons d s =>
        simp only
        constructor
        · intro h
          split at h
          · rename_i hp
            simp only [Bool.and_eq_true] at hp
            obtain ⟨h1, h2⟩ := (ih _ _).1 h
            refine ⟨by rw [h1]; rfl, ?_⟩
            intro a b hab
            cases a with
            | nil =>
              rw [List.nil_append, List.cons.injEq] at hab
              exact ⟨.inl ⟨rfl, hp.1⟩, d, s, hab.2.symm, hp.2⟩
            | cons x a =>
              rw [List.cons_append, List.cons.injEq] at hab
              obtain ⟨h3, h4⟩ := h2 a b hab.2
              refine ⟨.inr ?_, h4⟩
              rcases h3 with ⟨-, h⟩ | ⟨a', y, rfl, hy⟩
              · cases h
              · exact ⟨x :: a', y, rfl, hy⟩
          · cases h
        · rintro ⟨h1, h2⟩
          obtain ⟨h3, y, b', hb, hy⟩ := h2 [] (d :: s) rfl
          cases hb
          have hp : prev = true := by
            rcases h3 with ⟨-, h⟩ | ⟨a', y, h, -⟩
            · exact h
            · simp at h
          rw [hp, hy, Bool.and_self, if_pos rfl]
          refine (ih _ _).2 ⟨by rw [h1]; rfl, ?_⟩
          intro a b hab
          obtain ⟨h4, h5⟩ := h2 ('_' :: a) b (by rw [hab]; rfl)
          refine ⟨.inr ?_, h5⟩
          rcases h4 with ⟨h, -⟩ | ⟨a', z, ha, hz⟩
          · cases h
          · cases a' with
            | nil =>
              rw [List.nil_append, List.cons.injEq] at ha
              rw [← ha.1] at hz
              cases hz
            | cons w a' =>
              rw [List.cons_append, List.cons.injEq] at ha
              exact ⟨a', z, ha.2, hz⟩
    · rw [if_neg hc]
      simp only [Option.map_eq_some_iff]
      constructor
      · rintro ⟨u, hu, rfl⟩
        obtain ⟨h1, h2⟩ := (ih _ _).1 hu
        refine ⟨by simp [hc, h1], ?_⟩
        intro a b hab
        cases a with
        | nil =>
          rw [List.nil_append, List.cons.injEq] at hab
          exact absurd hab.1 hc
        | cons x a =>
          rw [List.cons_append, List.cons.injEq] at hab
          obtain ⟨h3, h4⟩ := h2 a b hab.2
          refine ⟨.inr ?_, h4⟩
          rcases h3 with ⟨rfl, h⟩ | ⟨a', y, rfl, hy⟩
          · exact ⟨[], x, rfl, by rw [← hab.1]; exact h⟩
          · exact ⟨x :: a', y, rfl, hy⟩
      · rintro ⟨h1, h2⟩
        refine ⟨s.filter (fun c => c ≠ '_'), (ih _ _).2 ⟨rfl, ?_⟩, by rw [h1]; simp [hc]⟩
        intro a b hab
        obtain ⟨h3, h4⟩ := h2 (c :: a) b (by rw [hab]; rfl)
        refine ⟨?_, h4⟩
        rcases h3 with ⟨h, -⟩ | ⟨a', z, ha, hz⟩
        · cases h
        · cases a' with
          | nil =>
            rw [List.nil_append, List.cons.injEq] at ha
            exact .inl ⟨ha.2, by rw [ha.1]; exact hz⟩
          | cons w a' =>
            rw [List.cons_append, List.cons.injEq] at ha
            exact .inr ⟨a', z, ha.2, hz⟩

theorem drop_iff (s t : Str) : dropUnderscores false s = some t ↔ Grouped s t := by
  rw [drop_grouped]
  constructor
  · rintro ⟨h1, h2⟩
    refine ⟨h1, fun a b hab => ?_⟩
    obtain ⟨h3, d, b', hb, hd⟩ := h2 a b hab
    refine ⟨?_, d, b', hb, (isDigit_iff' d).1 hd⟩
    rcases h3 with ⟨-, h⟩ | ⟨a', z, ha, hz⟩
    · cases h
    · exact ⟨a', z, ha, (isDigit_iff' z).1 hz⟩
  · rintro ⟨h1, h2⟩
    refine ⟨h1, fun a b hab => ?_⟩
    obtain ⟨⟨a', z, ha, hz⟩, d, b', hb, hd⟩ := h2 a b hab
    exact ⟨.inr ⟨a', z, ha, (isDigit_iff' z).2 hz⟩, d, b', hb, (isDigit_iff' d).2 hd⟩

theorem grouped_mem {s t : Str} (h : Grouped s t) {c : Char} (hc : c ∈ s) : c = '_' ∨ c ∈ t := by
  by_cases e : c = '_'
  · exact .inl e
  · right; rw [h.1]; simp [hc, e]

theorem grouped_self {s : Str} (h : '_' ∉ s) : Grouped s s := by
  refine ⟨?_, ?_⟩
  · rw [eq_comm, List.filter_eq_self]
    intro c hc
    have : c ≠ '_' := fun e => h (e ▸ hc)
    simp [this]
  · rintro a b rfl
    exact absurd (by simp) h

/-! characters of numbers -/

theorem decimal_chars {s : Str} {q : ℚ} (h : Decimal s q) : ∀ c ∈ s, isDigit c = true ∨ c = '.' := by
  intro c hc
  rcases h with ⟨⟨_, hd⟩, _⟩ | ⟨a, b, rfl, ⟨_, hd⟩, _⟩
  · exact .inl ((isDigit_iff' c).2 (hd c hc))
  · simp only [List.mem_append, List.mem_cons] at hc
    rcases hc with hc | rfl | hc
    · exact .inl ((isDigit_iff' c).2 (hd c (by simp [hc])))
    · exact .inr rfl
    · exact .inl ((isDigit_iff' c).2 (hd c (by simp [hc])))

theorem writes_chars {s : Str} {q : ℚ} (h : WritesNum s q) : ∀ c ∈ s, isDigit c = true ∨ c = '.' ∨ c = '+' ∨ c = '-' := by
  intro c hc
  rcases h with h | ⟨t, rfl, h⟩ | ⟨t, rfl, h⟩
  · rcases decimal_chars h c hc with h | h <;> simp [h]
  all_goals
    rcases List.mem_cons.1 hc with rfl | hc
    · simp
    · rcases decimal_chars h c hc with h | h <;> simp [h]

theorem int_chars {s : Str} {k : Int} (h : WritesInt s k) : ∀ c ∈ s, isDigit c = true ∨ c = '+' ∨ c = '-' := by
  intro c hc
  rcases h with ⟨h, -⟩ | ⟨t, rfl, h, -⟩ | ⟨t, rfl, h, -⟩
  · exact .inl ((isDigit_iff' c).2 (h.2 c hc))
  all_goals
    rcases List.mem_cons.1 hc with rfl | hc
    · simp
    · exact .inl ((isDigit_iff' c).2 (h.2 c hc))

theorem sci_chars {s : Str} {q : ℚ} (h : Scientific s q) :
    ∀ c ∈ s, isDigit c = true ∨ c = '.' ∨ c = '+' ∨ c = '-' ∨ c = 'e' ∨ c = 'E' := by
  intro c hc
  rcases h with h | ⟨m, e, z, r, k, rfl, he, hm, hz, -⟩
  · rcases writes_chars h c hc with h | h | h | h <;> simp [h]
  · simp only [List.mem_append, List.mem_cons] at hc
    rcases hc with hc | rfl | hc
    · rcases writes_chars hm c hc with h | h | h | h <;> simp [h]
    · rcases he with h | h <;> simp [h]
    · rcases int_chars hz c hc with h | h | h <;> simp [h]

theorem digit_not {c : Char} (p : Char → Bool) (hp : ∀ i : Fin 10, p (Char.ofNat (48 + i.val)) = false) (h : isDigit c = true) : p c = false := by
  obtain ⟨h1, h2⟩ := (isDigit_iff' c).1 h
  have e1 : 48 ≤ c.toNat := h1
  have e2 : c.toNat ≤ 57 := h2
  have := hp ⟨c.toNat - 48, by omega⟩
  rwa [show 48 + (c.toNat - 48) = c.toNat by omega, Char.ofNat_toNat] at this

theorem plainInt_iff (s : Str) (k : Int) : plainInt s = .ok k ↔ WritesInt s k := by
  have dig : ∀ t : Str, (t ≠ [] ∧ t.all isDigit = true) ↔ DigitText t := fun t =>
    ⟨fun h => ⟨h.1, fun d hd => (isDigit_iff' d).1 (List.all_eq_true.1 h.2 d hd)⟩,
      fun h => ⟨h.1, List.all_eq_true.2 fun d hd => (isDigit_iff' d).2 (h.2 d hd)⟩⟩
  have val : ∀ t : Str, DigitText t → digitsVal 0 t = decimal t := fun t ht => digitsVal_eq t ht.2
  have nd : ∀ c : Char, isDigit c = false → ∀ t : Str, ¬ DigitText (c :: t) := by
    intro c hc t h
    rw [(isDigit_iff' c).2 (h.2 c (by simp))] at hc
    cases hc
  unfold plainInt
  cases s with
  | nil =>
    simp only [reduceCtorEq, false_iff]
    rintro (⟨h, -⟩ | ⟨t, h, -⟩ | ⟨t, h, -⟩)
    · exact h.1 rfl
    · cases h
    · cases h
  | cons c t =>
    simp only
    by_cases h1 : c = '-'
    · subst h1
      rw [if_pos rfl]
      constructor
      · intro h
        split at h
        · rename_i hd
          have := (dig t).1 hd
          cases h
          exact .inr (.inr ⟨t, rfl, this, by rw [val t this]⟩)
        · cases h
      · rintro (⟨h, -⟩ | ⟨t', h, -⟩ | ⟨t', h, hd, hk⟩)
        · exact absurd h (nd _ (by decide) _)
        · simp at h
        · cases h
          rw [if_pos ((dig t).2 hd), val t hd, hk]
    · rw [if_neg h1]
      by_cases h2 : c = '+'
      · subst h2
        rw [if_pos rfl]
        constructor
        · intro h
          split at h
          · rename_i hd
            have := (dig t).1 hd
            cases h
            exact .inr (.inl ⟨t, rfl, this, by rw [val t this]⟩)
          · cases h
        · rintro (⟨h, -⟩ | ⟨t', h, hd, hk⟩ | ⟨t', h, -⟩)
          · exact absurd h (nd _ (by decide) _)
          · cases h
            rw [if_pos ((dig t).2 hd), val t hd, hk]
          · simp at h
      · rw [if_neg h2]
        constructor
        · intro h
          split at h
          · rename_i hd
            have := (dig (c :: t)).1 ⟨by simp, hd⟩
            cases h
            exact .inl ⟨this, by rw [val _ this]⟩
          · cases h
        · rintro (⟨h, hk⟩ | ⟨t', h, -⟩ | ⟨t', h, -⟩)
          · rw [if_pos ((dig _).2 h).2, val _ h, hk]
          · cases h; exact absurd rfl h2
          · cases h; exact absurd rfl h1

theorem plainInt_err {s : Str} {x : PyErr} (h : plainInt s = .error x) : x = .valueError := by
  unfold plainInt at h
  repeat' split at h
  all_goals first | (cases h; rfl) | cases h

theorem worth_shift (n : Num) (e : Int) : worth (n.shift e) = worth n * 10 ^ e := by
  unfold Num.shift
  have pos : 0 ≤ e → ((10 : ℚ) ^ e) = 10 ^ e.toNat := by
    intro h
    obtain ⟨k, rfl⟩ := Int.eq_ofNat_of_zero_le h
    simp
  have neg : ¬ 0 ≤ e → ((10 : ℚ) ^ e) = 1 / 10 ^ (-e).toNat := by
    intro h
    obtain ⟨k, hk⟩ := Int.eq_ofNat_of_zero_le (show 0 ≤ -e by omega)
    have : e = -(k : Int) := by omega
    subst this
    simp
  cases n with
  | int m =>
    simp only
    split
    · rename_i h; rw [pos h]; simp [worth]
    · rename_i h; rw [neg h, worth_norm]; simp [worth, div_eq_mul_inv]
  | dec m k =>
    simp only
    split
    · rename_i h; rw [pos h, worth_norm]; push_cast; rw [worth]; ring
    · rename_i h; rw [neg h, worth_norm, worth, pow_add]; field_simp

theorem parseExp_iff (s : Str) (q : ℚ) : (∃ n, parseExp s = .ok n ∧ worth n = q) ↔ Scientific s q := by
  have noE : ∀ {m : Str} {r : ℚ}, WritesNum m r → ∀ c ∈ m, noExponent c = true := by
    intro m r h c hc
    rcases writes_chars h c hc with h | rfl | rfl | rfl
    · have := digit_not (fun c => !noExponent c) (by decide +kernel) h
      simpa using this
    all_goals decide
  have splitE : ∀ (m : Str) (c : Char) (z : Str), (∀ c ∈ m, noExponent c = true) → noExponent c = false →
      (m ++ c :: z).takeWhile noExponent = m ∧ (m ++ c :: z).dropWhile noExponent = c :: z := by
    intro m c z hm hc
    induction m with
    | nil => simp [hc]
    | cons x m ih =>
      obtain ⟨h1, h2⟩ := ih (fun y hy => hm y (by simp [hy]))
      have hx := hm x (by simp)
      simp [hx, h1, h2]
  have hsplit := List.takeWhile_append_dropWhile (p := noExponent) (l := s)
  constructor
  · rintro ⟨n, h, rfl⟩
    unfold parseExp at h
    split at h
    · exact .inl ((parsePlain_iff s _).1 ⟨n, h, rfl⟩)
    · rename_i c e he
      simp only [bind, Except.bind] at h
      split at h
      · cases h
      · rename_i m hm
        split at h
        · cases h
        · rename_i k hk
          cases h
          have hc : noExponent c = false := by
            exact dropWhile_stop he
          refine .inr ⟨_, c, e, worth m, k, by rw [← he]; exact hsplit.symm, ?_,
            (parsePlain_iff _ _).1 ⟨m, hm, rfl⟩, (plainInt_iff _ _).1 hk, worth_shift _ _⟩
          by_cases h1 : c = 'e'
          · exact .inl h1
          · right; simpa [noExponent, h1] using hc
  · rintro (h | ⟨m, c, z, r, k, rfl, hc, hm, hz, rfl⟩)
    · have h1 : s.dropWhile noExponent = [] := by
        have := dropWhile_pad (s := []) (noE h)
        rwa [List.append_nil] at this
      unfold parseExp
      rw [h1]
      exact (parsePlain_iff s q).2 h
    · have hc' : noExponent c = false := by rcases hc with rfl | rfl <;> decide
      obtain ⟨h1, h2⟩ := splitE m c z (noE hm) hc'
      obtain ⟨n, h3, h4⟩ := (parsePlain_iff _ _).2 hm
      refine ⟨n.shift k, ?_, by rw [worth_shift, h4]⟩
      unfold parseExp
      rw [h2, h1]
      simp only [show parsePlain m = .ok n from h3, (plainInt_iff _ _).2 hz, bind, Except.bind]


theorem spaceless {s t : Str} (hg : Grouped s t)
    (h : ∀ c ∈ t, isDigit c = true ∨ c = '.' ∨ c = '+' ∨ c = '-' ∨ c = 'e' ∨ c = 'E') : ∀ c ∈ s, isSpace c = false := by
  intro c hc
  rcases grouped_mem hg hc with rfl | hc
  · decide
  · rcases h c hc with h | rfl | rfl | rfl | rfl | rfl
    · exact digit_not isSpace (by decide +kernel) h
    all_goals decide

theorem signOf_cases (s : Str) :
    signOf s = (false, s) ∨ (∃ t, s = '+' :: t ∧ signOf s = (false, t)) ∨ ∃ t, s = '-' :: t ∧ signOf s = (true, t) := by
  cases s with
  | nil => exact .inl rfl
  | cons c t =>
    by_cases h1 : c = '-'
    · subst h1; exact .inr (.inr ⟨t, rfl, rfl⟩)
    · by_cases h2 : c = '+'
      · subst h2; exact .inr (.inl ⟨t, rfl, rfl⟩)
      · left; rw [signOf, if_neg h1, if_neg h2]

theorem isInfinite_of {t w : Str} (h : t = w ∨ t = '+' :: w ∨ t = '-' :: w)
    (hw : w.map Char.toLower = "inf".toList ∨ w.map Char.toLower = "infinity".toList) : isInfinite t = true := by
  unfold isInfinite
  have hs : (signOf t).2 = w := by
    rcases h with rfl | rfl | rfl
    · have hh : ∃ l, t.map Char.toLower = 'i' :: l := by
        rcases hw with h | h
        · exact ⟨_, h⟩
        · exact ⟨_, h⟩
      rcases signOf_cases t with h | ⟨u, rfl, h⟩ | ⟨u, rfl, h⟩
      · rw [h]
      · obtain ⟨l, hl⟩ := hh
        simp [Char.toLower] at hl
      · obtain ⟨l, hl⟩ := hh
        simp [Char.toLower] at hl
    · rfl
    · rfl
  simp only [hs, decide_eq_true_eq]
  exact hw

theorem isInfinite_inv {t : Str} (h : isInfinite t = true) :
    ∃ w, (t = w ∨ t = '+' :: w ∨ t = '-' :: w) ∧
      (w.map Char.toLower = "inf".toList ∨ w.map Char.toLower = "infinity".toList) := by
  unfold isInfinite at h
  simp only [decide_eq_true_eq] at h
  refine ⟨(signOf t).2, ?_, h⟩
  rcases signOf_cases t with h | ⟨u, h1, h⟩ | ⟨u, h1, h⟩ <;> rw [h]
  · exact .inl rfl
  · exact .inr (.inl h1)
  · exact .inr (.inr h1)

/-- the letters of infinity are no letters of a number -/
theorem infinite_letter {t : Str} (h : isInfinite t = true) : ∃ c ∈ t, c.toLower = 'n' := by
  obtain ⟨w, h1, h2⟩ := isInfinite_inv h
  have hn : 'n' ∈ w.map Char.toLower := by rcases h2 with h | h <;> rw [h] <;> decide
  obtain ⟨c, hc, hl⟩ := List.mem_map.1 hn
  refine ⟨c, ?_, hl⟩
  rcases h1 with rfl | rfl | rfl
  · exact hc
  · exact List.mem_cons_of_mem _ hc
  · exact List.mem_cons_of_mem _ hc

theorem space_lower {c : Char} (h : isSpace c = true) : c.toLower = c := by
  unfold Char.toLower
  split
  · rename_i hc
    exfalso
    have h1 : 65 ≤ c.toNat := hc.1
    have h2 : c.toNat ≤ 90 := hc.2
    unfold isSpace at h
    simp only at h
    rw [if_neg (by omega), if_pos (by omega)] at h
    cases h
  · rfl

theorem infinite_spaceless {t : Str} (h : isInfinite t = true) : ∀ c ∈ t, isSpace c = false := by
  obtain ⟨w, h1, h2⟩ := isInfinite_inv h
  have hw : ∀ c ∈ w, isSpace c = false := by
    intro c hc
    have hm : c.toLower ∈ w.map Char.toLower := List.mem_map_of_mem hc
    have hs : ∀ d ∈ w.map Char.toLower, isSpace d = false := by
      rcases h2 with h | h <;> rw [h] <;> decide
    have := hs _ hm
    cases e : isSpace c with
    | false => rfl
    | true =>
      rw [space_lower e] at this
      rw [e] at this
      cases this
  intro c hc
  rcases h1 with rfl | rfl | rfl
  · exact hw c hc
  all_goals
    rcases List.mem_cons.1 hc with rfl | hc
    · decide
    · exact hw c hc

theorem infinite_iff (s : Str) : isInfinite (stripSpace s) = true ↔ InfinityText s := by
  constructor
  · intro h
    obtain ⟨w, h1, h2⟩ := isInfinite_inv h
    exact ⟨_, w, padded_strip s, h1, h2⟩
  · rintro ⟨t, w, hp, h1, h2⟩
    have := isInfinite_of h1 h2
    rwa [strip_padded hp (infinite_spaceless this)]

theorem number_strip {s : Str} {q : ℚ} (h : NumberText s q) :
    ∃ u, dropUnderscores false (stripSpace s) = some u ∧ Scientific u q ∧ isInfinite (stripSpace s) = false := by
  obtain ⟨t, u, hp, hg, hs⟩ := h
  have e := strip_padded hp (spaceless hg (sci_chars hs))
  rw [e]
  refine ⟨u, (drop_iff _ _).2 hg, hs, ?_⟩
  cases hi : isInfinite t with
  | false => rfl
  | true =>
    exfalso
    obtain ⟨c, hc, hn⟩ := infinite_letter hi
    rcases grouped_mem hg hc with h | h
    · rw [h] at hn
      exact absurd hn (by decide)
    · rcases sci_chars hs c h with h | rfl | rfl | rfl | rfl | rfl
      · have := digit_not (fun c => decide (c.toLower = 'n')) (by decide +kernel) h
        simp [hn] at this
      all_goals exact absurd hn (by decide)

theorem parseWide_iff (s : Str) (q : ℚ) : (∃ n, parseWide s = .ok n ∧ worth n = q) ↔ NumberText s q := by
  constructor
  · rintro ⟨n, h, rfl⟩
    unfold parseWide at h
    split at h
    · cases h
    · split at h
      · rename_i u hu
        exact ⟨_, u, padded_strip s, (drop_iff _ _).1 hu, (parseExp_iff _ _).1 ⟨n, h, rfl⟩⟩
      · cases h
  · intro h
    obtain ⟨u, h1, h2, h3⟩ := number_strip h
    unfold parseWide
    rw [h3, h1]
    exact (parseExp_iff _ _).2 h2

theorem writes_number {s : Str} {q : ℚ} (h : WritesNum s q) : NumberText s q := by
  refine ⟨s, s, ⟨[], [], by simp, by simp, by simp⟩, grouped_self ?_, .inl h⟩
  intro hu
  have := writes_chars h _ hu
  revert this
  decide

/-- a text is read as a number worth `q` exactly if it writes `q` -/
theorem parseNum_iff (s : Str) (q : ℚ) : (∃ n, parseNum s = .ok n ∧ worth n = q) ↔ NumberText s q := by
  have key : ∀ n, parsePlain s = .ok n → ∃ m, parseWide s = .ok m ∧ worth m = worth n := fun n h =>
    (parseWide_iff _ _).2 (writes_number ((parsePlain_iff s _).1 ⟨n, h, rfl⟩))
  rw [← parseWide_iff]
  unfold parseNum
  cases e : parsePlain s with
  | error x => rfl
  | ok n =>
    obtain ⟨m, h1, h2⟩ := key n e
    simp [h1, h2]

theorem parseExp_err {s : Str} {x : PyErr} (h : parseExp s = .error x) : x = .valueError := by
  unfold parseExp at h
  split at h
  · exact parsePlain_err h
  · simp only [bind, Except.bind] at h
    split at h
    · rename_i e
      cases h
      exact parsePlain_err e
    · split at h
      · rename_i e
        cases h
        exact plainInt_err e
      · cases h

theorem number_infinite (s : Str) : parseNum s = .error .overflowError ↔ InfinityText s := by
  rw [← infinite_iff]
  unfold parseNum
  cases e : parsePlain s with
  | ok n =>
    obtain ⟨-, -, -, h⟩ := number_strip (writes_number ((parsePlain_iff s _).1 ⟨n, e, rfl⟩))
    simp [h]
  | error x =>
    simp only [parseWide]
    split
    · rename_i h; simp [h]
    · rename_i h
      refine ⟨fun hx => ?_, fun hx => absurd hx h⟩
      split at hx
      · have := parseExp_err hx
        cases this
      · cases hx

theorem number_refused (s : Str) : parseNum s = .error .valueError ↔ (∀ q, ¬ NumberText s q) ∧ ¬ InfinityText s := by
  constructor
  · intro h
    refine ⟨fun q hq => ?_, fun hi => ?_⟩
    · obtain ⟨n, h1, -⟩ := (parseNum_iff s q).2 hq
      rw [h] at h1; cases h1
    · rw [(number_infinite s).2 hi] at h
      cases h
  · rintro ⟨h1, h2⟩
    cases e : parseNum s with
    | ok n => exact absurd ((parseNum_iff s _).1 ⟨n, e, rfl⟩) (h1 _)
    | error x =>
      unfold parseNum at e
      split at e
      · cases e
      · unfold parseWide at e
        split at e
        · rename_i h; exact absurd ((infinite_iff s).1 h) h2
        · split at e
          · rw [parseExp_err e]
          · cases e; rfl

theorem pyInt_iff (s : Str) (k : Int) : pyInt s = .ok k ↔ IntText s k := by
  have wide : ∀ k, IntText s k → ∃ u, dropUnderscores false (stripSpace s) = some u ∧ plainInt u = .ok k := by
    rintro k ⟨t, u, hp, hg, hi⟩
    have e := strip_padded hp (spaceless hg fun c hc => by rcases int_chars hi c hc with h | h | h <;> simp [h])
    rw [e]
    exact ⟨u, (drop_iff _ _).2 hg, (plainInt_iff _ _).2 hi⟩
  have self : ∀ k, plainInt s = .ok k → IntText s k := by
    intro k h
    have h := (plainInt_iff _ _).1 h
    refine ⟨s, s, ⟨[], [], by simp, by simp, by simp⟩, grouped_self ?_, h⟩
    intro hu
    have := int_chars h _ hu
    revert this
    decide
  unfold pyInt
  constructor
  · intro h
    split at h
    · rename_i n e; cases h; exact self _ e
    · split at h
      · rename_i u hu
        exact ⟨_, u, padded_strip s, (drop_iff _ _).1 hu, (plainInt_iff _ _).1 h⟩
      · cases h
  · intro h
    obtain ⟨u, h1, h2⟩ := wide k h
    split
    · rename_i n e
      obtain ⟨u', h3, h4⟩ := wide n (self n e)
      rw [h1] at h3
      cases h3
      rw [← h4, h2]
    · rw [h1]; exact h2

theorem int_refused (s : Str) : pyInt s = .error .valueError ↔ ∀ k, ¬ IntText s k := by
  constructor
  · intro h k hk
    rw [(pyInt_iff s k).2 hk] at h
    cases h
  · intro h
    cases e : pyInt s with
    | ok k => exact absurd ((pyInt_iff s k).1 e) (h k)
    | error x =>
      unfold pyInt at e
      split at e
      · cases e
      · split at e
        · rw [plainInt_err e]
        · cases e; rfl

theorem int_digit {s : Str} {k : Int} (h : IntText s k) : ∃ d ∈ s, isDigit d = true := by
  obtain ⟨t, u, ⟨x, y, rfl, -, -⟩, hg, hi⟩ := h
  have first : ∀ v : Str, DigitText v → ∃ d ∈ v, isDigit d = true := by
    rintro v ⟨h1, h2⟩
    obtain ⟨d, hd⟩ := List.exists_mem_of_ne_nil v h1
    exact ⟨d, hd, (isDigit_iff' d).2 (h2 d hd)⟩
  have hd : ∃ d ∈ u, isDigit d = true := by
    rcases hi with ⟨h, -⟩ | ⟨v, rfl, h, -⟩ | ⟨v, rfl, h, -⟩
    · exact first u h
    all_goals
      obtain ⟨d, hd, hd'⟩ := first v h
      exact ⟨d, List.mem_cons_of_mem _ hd, hd'⟩
  obtain ⟨d, hd, hd'⟩ := hd
  rw [hg.1, List.mem_filter] at hd
  exact ⟨d, by simp [hd.1], hd'⟩

end Verif.Proofs
