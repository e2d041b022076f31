import Verif.Py.Csv

/-! Texts written to a CSV file are read back. -/
namespace Verif.Proofs
open Verif.Py

/-- an end of line -/
def LineEnd (nl : Str) : Prop := nl = ['\n'] ∨ nl = ['\r', '\n']

theorem csv_plain {st : CsvState} (hst : st ≠ .quoted ∧ (st = .quote → False)) (s : Str) (hs : ∀ c ∈ s, c ≠ ',' ∧ c ≠ '"' ∧ c ≠ '\n' ∧ c ≠ '\r')
    (cur : Str) (row : List Str) (rest : Str) :
    csvRun st cur row (s ++ rest) = csvRun (if s = [] then st else .plain) (cur ++ s) row rest := by
  induction s generalizing st cur with
  | nil => simp
  | cons c s ih =>
    obtain ⟨h1, h2, h3, h4⟩ := hs c (by simp)
    rw [List.cons_append, csvRun, if_neg hst.1, if_neg (by simp [h2]), if_neg (by simp [h2]), if_neg h1, if_neg (by simp [h3, h4]),
      ih (by simp) (fun d hd => hs d (by simp [hd]))]
    simp

theorem csv_quoted (s : Str) (cur : Str) (row : List Str) (rest : Str) :
    csvRun .quoted cur row (s.flatMap (fun c => if c = '"' then ['"', '"'] else [c]) ++ '"' :: rest) = csvRun .quote (cur ++ s) row rest := by
  induction s generalizing cur with
  | nil => simp [csvRun]
  | cons c s ih =>
    rw [List.flatMap_cons]
    by_cases hc : c = '"'
    · subst hc
      simp only [if_true, List.cons_append, List.nil_append]
      rw [csvRun, if_pos rfl, if_pos rfl, csvRun, if_neg (by decide), if_neg (by simp), if_pos ⟨rfl, rfl⟩, ih]
      simp
    · simp only [if_neg hc, List.cons_append, List.nil_append]
      rw [csvRun, if_pos rfl, if_neg hc, ih]
      simp

/-- a text that can be read back: carriage returns need an end of line that has one -/
def FieldOk (nl s : Str) : Prop := '\r' ∈ s → '\r' ∈ nl

theorem csv_field {nl : Str} (hnl : LineEnd nl) {st : CsvState} (hst : st = .record ∨ st = .field) {s : Str} (hs : FieldOk nl s)
    (row : List Str) (rest : Str) :
    ∃ st', st' ≠ .quoted ∧ (st = .field → st' ≠ .record) ∧ csvRun st [] row (csvField nl s ++ rest) = csvRun st' s row rest := by
  unfold csvField
  split
  · refine ⟨.quote, by simp, by simp, ?_⟩
    rw [List.cons_append, csvRun, if_neg (by rcases hst with h | h <;> simp [h]), if_pos ⟨rfl, hst⟩, List.append_assoc, List.singleton_append, csv_quoted]
    simp
  · rename_i h
    refine ⟨if s = [] then st else .plain, ?_, ?_, ?_⟩
    · rcases hst with h | h <;> split <;> simp [h]
    · intro h; split <;> simp [h]
    · have hn : '\n' ∈ nl := by rcases hnl with h | h <;> simp [h]
      have := csv_plain (st := st) (by rcases hst with h | h <;> simp [h]) s (fun c hc => by
        have hcs : csvSpecial nl c = false := by
          rw [Bool.eq_false_iff]
          intro e
          exact h (List.any_eq_true.2 ⟨c, hc, e⟩)
        simp only [csvSpecial, Bool.or_eq_false_iff, decide_eq_false_iff_not] at hcs
        obtain ⟨⟨h1, h2⟩, h3⟩ := hcs
        have h3 : c ∉ nl := by
          intro e
          rw [List.contains_iff_mem.2 e] at h3
          cases h3
        exact ⟨h1, h2, fun e => h3 (e ▸ hn), fun e => h3 (e ▸ hs (e ▸ hc))⟩) [] row rest
      rw [this]
      rfl

theorem csv_end {nl : Str} (hnl : LineEnd nl) {st : CsvState} (h1 : st ≠ .quoted) (h2 : st ≠ .record) (cur : Str) (row : List Str) (rest : Str) :
    csvRun st cur row (nl ++ rest) = (csvRun .record [] [] rest).map (fun rows => (row ++ [cur]) :: rows) := by
  rcases hnl with rfl | rfl
  · rw [List.singleton_append, csvRun, if_neg h1, if_neg (by simp), if_neg (by simp), if_neg (by simp), if_pos (by simp), if_neg h2]
  · rw [List.cons_append, csvRun, if_neg h1, if_neg (by simp), if_neg (by simp), if_neg (by simp), if_pos (by simp), if_neg h2,
      List.singleton_append]
    congr 1

theorem csv_comma {st : CsvState} (h1 : st ≠ .quoted) (cur : Str) (row : List Str) (rest : Str) :
    csvRun st cur row (',' :: rest) = csvRun .field [] (row ++ [cur]) rest := by
  rw [csvRun, if_neg h1, if_neg (by simp), if_neg (by simp), if_pos rfl]

theorem csv_fields {nl : Str} (hnl : LineEnd nl) (fields : List Str) (hne : fields ≠ []) (hf : ∀ s ∈ fields, FieldOk nl s) (row : List Str)
    (rest : Str) : csvRun .field [] row (csvRow nl fields ++ rest) = (csvRun .record [] [] rest).map (fun rows => (row ++ fields) :: rows) := by
  unfold csvRow
  induction fields generalizing row with
  | nil => exact absurd rfl hne
  | cons s more ih =>
    cases more with
    | nil =>
      obtain ⟨st', a, b, c⟩ := csv_field hnl (Or.inr rfl) (hf s (by simp)) row (nl ++ rest)
      simp only [List.map_cons, List.map_nil, joinWith]
      rw [List.append_assoc, c, csv_end hnl a (b rfl)]
    | cons s2 more =>
      have ih := ih (by simp) (fun x hx => hf x (by simp [hx])) (row ++ [s])
      simp only [List.map_cons, joinWith, List.append_assoc, List.cons_append] at ih ⊢
      obtain ⟨st', a, _, c⟩ := csv_field hnl (Or.inr rfl) (hf s (by simp)) row
        (',' :: (joinWith ',' (csvField nl s2 :: more.map (csvField nl)) ++ (nl ++ rest)))
      rw [c, csv_comma a, ih]
      simp

theorem csv_row {nl : Str} (hnl : LineEnd nl) (fields : List Str) (hne : 2 ≤ fields.length) (hf : ∀ s ∈ fields, FieldOk nl s) (rest : Str) :
    csvRun .record [] [] (csvRow nl fields ++ rest) = (csvRun .record [] [] rest).map (fun rows => fields :: rows) := by
  match fields, hne with
  | s :: s2 :: more, _ =>
    obtain ⟨st', a, _, c⟩ := csv_field hnl (Or.inl rfl) (hf s (by simp)) []
        (',' :: (joinWith ',' (csvField nl s2 :: more.map (csvField nl)) ++ (nl ++ rest)))
    have h2 := csv_fields hnl (s2 :: more) (by simp) (fun x hx => hf x (by simp [hx])) [s] rest
    unfold csvRow at h2 ⊢
    simp only [List.map_cons, joinWith, List.append_assoc, List.cons_append] at h2 ⊢
    rw [c, csv_comma a]
    exact h2

/-- rows written are read back -/
theorem csvRows_text {nl : Str} (hnl : LineEnd nl) (rows : List (List Str)) (h2 : ∀ r ∈ rows, 2 ≤ r.length)
    (hf : ∀ r ∈ rows, ∀ s ∈ r, FieldOk nl s) : csvRows (csvText nl rows) = .ok rows := by
  unfold csvRows csvText
  induction rows with
  | nil => rfl
  | cons r rows ih =>
    rw [List.flatMap_cons, csv_row hnl r (h2 r (by simp)) (hf r (by simp)), ih (fun x hx => h2 x (by simp [hx])) (fun x hx => hf x (by simp [hx]))]
    rfl

end Verif.Proofs
