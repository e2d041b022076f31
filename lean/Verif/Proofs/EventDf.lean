import Verif.Proofs.Frame

/-! The table of events. -/
namespace Verif.Proofs
open Verif.Py Verif.Model Verif.Spec

theorem isLetter_iff (c : Char) : isLetter c = true ↔ (('A' ≤ c ∧ c ≤ 'Z') ∨ ('a' ≤ c ∧ c ≤ 'z')) := by
  simp [isLetter]

theorem isDigit_range (c : Char) : isDigit c = true ↔ ('0' ≤ c ∧ c ≤ '9') := by
  simp [isDigit]

theorem letter_not_digit (c : Char) (h : isDigit c = true) : isLetter c = false := by
  cases hl : isLetter c with
  | false => rfl
  | true =>
    rw [isDigit_range] at h
    rw [isLetter_iff] at hl
    simp only [Char.le_def, UInt32.le_iff_toNat_le] at h hl
    simp at h hl
    omega

theorem takeWhile_holds (p : Char → Bool) (l : Str) : ∀ c ∈ l.takeWhile p, p c = true := by
  induction l with
  | nil => simp
  | cons a l ih =>
    rw [List.takeWhile_cons]
    split
    · intro c hc
      rcases List.mem_cons.1 hc with rfl | hc
      · assumption
      · exact ih c hc
    · simp

theorem numbered_lastNum {tag name number : Str} (h : NumberedAs tag name number) : lastNum tag = some (name, number) := by
  obtain ⟨rfl, h1, h2, h3, h4⟩ := h
  have a3 : ∀ c ∈ name, isLetter c = true := fun c hc => (isLetter_iff c).2 (h3 c hc)
  have a4 : ∀ c ∈ number, isDigit c = true := fun c hc => (isDigit_range c).2 (h4 c hc)
  have t1 : (name ++ number).takeWhile isLetter = name ∧ (name ++ number).dropWhile isLetter = number := by
    cases number with
    | nil => exact absurd rfl h2
    | cons d r =>
      have hd : isLetter d = false := letter_not_digit d (a4 d (by simp))
      constructor
      · rw [List.takeWhile_append_of_pos a3, List.takeWhile_cons_of_neg (by simp [hd]), List.append_nil]
      · rw [List.dropWhile_append_of_pos a3, List.dropWhile_cons_of_neg (by simp [hd])]
  unfold lastNum
  simp only [t1.1, t1.2]
  have t2 := takeWhile_all isDigit number a4
  rw [t2.1, t2.2, if_pos ⟨h1, h2, .inl rfl⟩]

theorem lastNum_numbered {tag name number : Str} (hn : '\n' ∉ tag) (h : lastNum tag = some (name, number)) :
    NumberedAs tag name number := by
  unfold lastNum at h
  simp only at h
  split at h
  · rename_i hc
    simp only [Option.some.injEq, Prod.mk.injEq] at h
    obtain ⟨rfl, rfl⟩ := h
    obtain ⟨c1, c2, c3⟩ := hc
    have e : tag = tag.takeWhile isLetter ++ ((tag.dropWhile isLetter).takeWhile isDigit ++ (tag.dropWhile isLetter).dropWhile isDigit) := by
      rw [List.takeWhile_append_dropWhile, List.takeWhile_append_dropWhile]
    have c3' : (tag.dropWhile isLetter).dropWhile isDigit = [] := by
      rcases c3 with c3 | c3
      · exact c3
      · exfalso
        apply hn
        rw [e, c3]
        simp
    rw [c3', List.append_nil] at e
    refine ⟨e, c1, c2, ?_, ?_⟩
    · intro c hc
      exact (isLetter_iff c).1 (takeWhile_holds _ _ c hc)
    · intro c hc
      exact (isDigit_range c).1 (takeWhile_holds _ _ c hc)
  · cases h

theorem putKey_new {β : Type} (l : List (Str × β)) (k : Str) (v : β) (h : k ∉ l.map Prod.fst) : putKey l k v = l ++ [(k, v)] := by
  induction l with
  | nil => rfl
  | cons a l ih =>
    simp only [List.map_cons, List.mem_cons, not_or] at h
    rw [putKey, if_neg (Ne.symm h.1), ih h.2]
    rfl

theorem update_new {β : Type} (a l : List (Str × β)) (hn : (a.map Prod.fst).Nodup) (h : ∀ x ∈ a, x.1 ∉ l.map Prod.fst) :
    a.foldl (fun r kv => putKey r kv.1 kv.2) l = l ++ a := by
  induction a generalizing l with
  | nil => simp
  | cons x a ih =>
    simp only [List.map_cons, List.nodup_cons] at hn
    rw [List.foldl_cons, putKey_new _ _ _ (h x (by simp)), ih _ hn.2]
    · simp
    · intro y hy
      simp only [List.map_append, List.mem_append, List.map_cons, List.map_nil, List.mem_singleton, not_or]
      refine ⟨h y (by simp [hy]), ?_⟩
      intro e
      exact hn.1 (by rw [← e]; exact List.mem_map_of_mem hy)

theorem numbered_rows {e : Event} (he : Element e) {name number : Str} (h : NumberedAs e.tag name number) (i : Nat) :
    elementRows true i e = [] ∧ elementRows false i e =
      ([("<tag_extra>".toList, number), ("<tag>".toList, name)] ++ e.attrib).map (fun kv => ⟨i, name, kv.1, kv.2⟩) := by
  have hl := numbered_lastNum h
  constructor
  · unfold elementRows; simp [hl]
  · unfold elementRows
    simp only [hl, Option.isSome_some, Bool.and_false, Bool.false_eq_true, if_false]
    have e0 : putKey [("<tag_extra>".toList, number)] "<tag>".toList name = [("<tag_extra>".toList, number), ("<tag>".toList, name)] :=
      putKey_new _ _ _ (by simp)
    rw [e0, update_new _ _ he.1]
    intro x hx hm
    have := he.2.1 x hx
    simp only [List.map_cons, List.map_nil, List.mem_cons, List.not_mem_nil, or_false] at hm
    rcases hm with hm | hm <;> · rw [hm] at this; exact this (by decide +kernel)

theorem plain_rows {e : Event} (he : Element e) (h : ¬ ∃ a b, NumberedAs e.tag a b) (b : Bool) (i : Nat) :
    elementRows b i e = (("<tag>".toList, e.tag) :: e.attrib).map (fun kv => ⟨i, e.tag, kv.1, kv.2⟩) := by
  have hl : lastNum e.tag = none := by
    cases hx : lastNum e.tag with
    | none => rfl
    | some r => exact absurd ⟨r.1, r.2, lastNum_numbered he.2.2 hx⟩ h
  unfold elementRows
  simp only [hl, Option.isSome_none, Bool.false_and, Bool.false_eq_true, if_false, putKey]
  rw [update_new _ _ he.1]
  · rfl
  · intro x hx hm
    have := he.2.1 x hx
    simp only [List.map_cons, List.map_nil, List.mem_cons, List.not_mem_nil, or_false] at hm
    rw [hm] at this
    exact this (by decide +kernel)

theorem rows_index (b : Bool) (i : Nat) (e : Event) : ∀ r ∈ elementRows b i e, r.index = i := by
  unfold elementRows
  simp only
  split
  · simp
  · intro r hr
    obtain ⟨_, _, rfl⟩ := List.mem_map.1 hr
    rfl

theorem dfFrom_ge (b : Bool) (es : List Event) (i : Nat) : ∀ r ∈ eventDfFrom b i es, i ≤ r.index ∧ r.index < i + es.length := by
  induction es generalizing i with
  | nil => simp [eventDfFrom]
  | cons e es ih =>
    intro r hr
    rw [eventDfFrom] at hr
    rcases List.mem_append.1 hr with hr | hr
    · rw [rows_index b i e r hr]; simp
    · have := ih (i + 1) r hr
      simp only [List.length_cons]
      omega

theorem filter_all {α : Type} {l : List α} {p : α → Bool} (h : ∀ x ∈ l, p x = true) : l.filter p = l :=
  List.filter_eq_self.2 h

theorem dfFrom_filter (b : Bool) (es : List Event) (i k : Nat) :
    (eventDfFrom b i es).filter (fun r => decide (r.index = i + k)) =
      match es[k]? with | some e => elementRows b (i + k) e | none => [] := by
  induction es generalizing i k with
  | nil => simp [eventDfFrom]
  | cons e es ih =>
    rw [eventDfFrom, List.filter_append]
    cases k with
    | zero =>
      rw [filter_all (fun x hx => by simp [rows_index b i e x hx]), List.filter_eq_nil_iff.2]
      · simp
      · intro r hr
        have := dfFrom_ge b es (i + 1) r hr
        simp; omega
    | succ k =>
      rw [List.filter_eq_nil_iff.2]
      · have := ih (i + 1) k
        rw [show i + 1 + k = i + (k + 1) by omega] at this
        simpa using this
      · intro r hr
        rw [rows_index b i e r hr]
        simp

theorem dfFrom_sorted (b : Bool) (es : List Event) (i : Nat) : ((eventDfFrom b i es).map DfRow.index).Pairwise (· ≤ ·) := by
  induction es generalizing i with
  | nil => simp [eventDfFrom]
  | cons e es ih =>
    rw [eventDfFrom, List.map_append, List.pairwise_append]
    refine ⟨?_, ih (i + 1), ?_⟩
    · have : (elementRows b i e).map DfRow.index = List.replicate (elementRows b i e).length i := by
        rw [List.eq_replicate_iff]
        refine ⟨by simp, ?_⟩
        intro x hx
        obtain ⟨r, hr, rfl⟩ := List.mem_map.1 hx
        exact rows_index b i e r hr
      rw [this]
      exact List.pairwise_replicate.2 (.inr (Nat.le_refl _))
    · intro x hx y hy
      obtain ⟨r, hr, rfl⟩ := List.mem_map.1 hx
      obtain ⟨r', hr', rfl⟩ := List.mem_map.1 hy
      rw [rows_index b i e r hr]
      have := dfFrom_ge b es (i + 1) r' hr'
      omega

theorem rows_event {a b : Event} (ha : Element a) (hb : Element b) (i : Nat) (h : elementRows false i a = elementRows false i b) : a = b := by
  have inj : ∀ (x y : List (Str × Str)) (t u : Str), x.map (fun kv => (⟨i, t, kv.1, kv.2⟩ : DfRow)) = y.map (fun kv => ⟨i, u, kv.1, kv.2⟩) → x = y := by
    intro x
    induction x with
    | nil => intro y t u h; cases y with | nil => rfl | cons _ _ => cases h
    | cons p x ih =>
      intro y t u h
      cases y with
      | nil => cases h
      | cons q y =>
        simp only [List.map_cons, List.cons.injEq, DfRow.mk.injEq] at h
        rw [ih y t u h.2, show p = q from Prod.ext h.1.2.2.1 h.1.2.2.2]
  obtain ⟨ta, aa⟩ := a
  obtain ⟨tb, ab⟩ := b
  by_cases na : ∃ x y, NumberedAs ta x y
  · obtain ⟨x, y, na⟩ := na
    rw [(numbered_rows ha na i).2] at h
    by_cases nb : ∃ x y, NumberedAs tb x y
    · obtain ⟨x', y', nb⟩ := nb
      rw [(numbered_rows hb nb i).2] at h
      have := inj _ _ _ _ h
      simp only [List.cons_append, List.nil_append, List.cons.injEq, Prod.mk.injEq, true_and] at this
      obtain ⟨rfl, rfl, rfl⟩ := this
      rw [na.1, nb.1]
    · rw [plain_rows hb nb] at h
      have := inj _ _ _ _ h
      simp only [List.cons_append, List.cons.injEq, Prod.mk.injEq] at this
      exact absurd this.1.1 (by decide +kernel)
  · rw [plain_rows ha na] at h
    by_cases nb : ∃ x y, NumberedAs tb x y
    · obtain ⟨x', y', nb⟩ := nb
      rw [(numbered_rows hb nb i).2] at h
      have := inj _ _ _ _ h
      simp only [List.cons_append, List.cons.injEq, Prod.mk.injEq] at this
      exact absurd this.1.1 (by decide +kernel)
    · rw [plain_rows hb nb] at h
      have := inj _ _ _ _ h
      simp only [List.cons.injEq, Prod.mk.injEq, true_and] at this
      obtain ⟨rfl, rfl⟩ := this
      rfl

theorem rows_ne_nil {e : Event} (he : Element e) (i : Nat) : elementRows false i e ≠ [] := by
  by_cases n : ∃ x y, NumberedAs e.tag x y
  · obtain ⟨x, y, n⟩ := n
    rw [(numbered_rows he n i).2]; simp
  · rw [plain_rows he n]; simp

end Verif.Proofs
