import Verif.Proofs.CsvFile
import Verif.Props.Frame
import Verif.Props.Vocabulary

/-! Property C97: the file of a record, read back. -/
namespace Verif.Props
open Verif.Py Verif.Model Verif.Spec Verif.Proofs

/-- the text a value or state is written as -/
def written97 (sh : Val → Str) (k : PropKind) (v : Val) : Str := if k = .text then pyStrVal sh v else jsonDumps v

theorem value_read (sh : Val → Str) {v : View} {k : PropKind} (hk : HasKind v k) {x : Val} (hx : ValOk x) {c : Cell}
    (h : CellRead (written97 sh k x) c) :
    ∃ y, fromStr v c = .ok y ∧ (k ≠ .text → y = x) ∧ (k = .text → PlainText (pyStrVal sh x) → y = .str (pyStrVal sh x)) ∧
      (k = .text → pyStrVal sh x ∈ missingTexts → y = .str "nan".toList) ∧ (k = .text → ∃ s, y = .str s) := by
  rw [fromStr_kind hk]
  unfold written97 at h
  split
  · next ht =>
    rw [if_pos ht] at h
    refine ⟨_, rfl, fun h' => absurd ht h', ?_, ?_, fun _ => ⟨_, rfl⟩⟩
    · intro _ hp
      rw [hp c h]
      rfl
    · intro _ hm
      rw [missing_read hm h]
      rfl
  · next ht =>
    rw [if_neg ht] at h
    exact ⟨x, json_cell hx h, fun _ => rfl, fun h' => absurd h' ht, fun h' => absurd h' ht, fun h' => absurd h' ht⟩

theorem missing_number : ∀ s ∈ missingTexts, parseNum s = .error .valueError := by decide +kernel
theorem bool_number : ∀ b : Bool, ∀ s ∈ boolTexts b, parseNum s = .error .valueError := by decide +kernel

theorem cellNamed_all (c0 c1 c2 c3 c4 c5 c6 c7 c8 : Cell) :
    cellNamed ([] :: commandFieldNames) [c0, c1, c2, c3, c4, c5, c6, c7, c8] "timestamp".toList = .ok c1 ∧
    cellNamed ([] :: commandFieldNames) [c0, c1, c2, c3, c4, c5, c6, c7, c8] "event".toList = .ok c2 ∧
    cellNamed ([] :: commandFieldNames) [c0, c1, c2, c3, c4, c5, c6, c7, c8] "scope".toList = .ok c3 ∧
    cellNamed ([] :: commandFieldNames) [c0, c1, c2, c3, c4, c5, c6, c7, c8] "sub_scope_id".toList = .ok c4 ∧
    cellNamed ([] :: commandFieldNames) [c0, c1, c2, c3, c4, c5, c6, c7, c8] "property".toList = .ok c5 ∧
    cellNamed ([] :: commandFieldNames) [c0, c1, c2, c3, c4, c5, c6, c7, c8] "update_method".toList = .ok c6 ∧
    cellNamed ([] :: commandFieldNames) [c0, c1, c2, c3, c4, c5, c6, c7, c8] "value".toList = .ok c7 ∧
    cellNamed ([] :: commandFieldNames) [c0, c1, c2, c3, c4, c5, c6, c7, c8] "state".toList = .ok c8 := by
  refine ⟨?_, ?_, ?_, ?_, ?_, ?_, ?_, ?_⟩ <;> rfl

theorem row_read (sh : Val → Str) (c : Cmd) (hc : Storable c) {r : Rec} (hr : c.toRecord sh = .ok r) (i : Nat) {cells : List Cell}
    (h : List.Forall₂ CellRead (recFields true i r) cells) (ht : ∃ n : Num, cells[1]? = some (Cell.num n)) :
    ∃ c', csvCommand ([] :: commandFieldNames) cells = .ok c' ∧ ReadAs sh c c' := by
  obtain ⟨⟨k, hk⟩, hv, hs, hsub, ⟨ts, hts, _⟩⟩ := hc
  obtain ⟨n, hn, hb⟩ := name_kind ⟨k, hk⟩
  have hnp : plainB n = true := by
    obtain ⟨s, m, hm, e⟩ := hk
    have := table_name _ hm
    rw [e, this] at hn
    injection hn with hn
    rw [← hn]
    exact (property_plain _ hm).1
  rw [toRecord_eq sh c hk n hn, Except.ok.injEq] at hr
  subst hr
  unfold recFields at h
  cases h with | cons g0 h =>
  cases h with | cons g1 h =>
  cases h with | cons g2 h =>
  cases h with | cons g3 h =>
  cases h with | cons g4 h =>
  cases h with | cons g5 h =>
  cases h with | cons g6 h =>
  cases h with | cons g7 h =>
  cases h with | cons g8 h =>
  cases h
  rename_i c0 c1 c2 c3 c4 c5 c6 c7 c8
  obtain ⟨tn, htn⟩ := ht
  simp only [List.getElem?_cons_succ, List.getElem?_cons_zero, Option.some.injEq] at htn
  subst htn
  simp only [hts, timeText, if_true] at g1
  rw [whole_read g1]
  have e3 := plain_of (scope_plain c.prop.scope).1 _ g3
  have e5 := plain_of hnp _ g5
  have e6 := plain_of (update_plain c.update).1 _ g6
  subst e3 e5 e6
  obtain ⟨y, y1, y2, y3, y4, y5⟩ := value_read sh hk hv (c := c7) (by
    cases k <;> exact g7)
  obtain ⟨z, z1, z2, z3, z4, z5⟩ := value_read sh hk hs (c := c8) (by
    cases k <;> exact g8)
  have e4 : (∃ s, c4 = .text s ∧ Sub.tryInt (.text s) = c.sub) ∨ ∃ m, c4 = .num (.int m) ∧ Sub.num m = c.sub := by
    rcases hsub with e | ⟨m, e⟩
    · left
      rw [e] at g4
      refine ⟨"all".toList, plain_of all_plain _ g4, ?_⟩
      rw [e]; decide +kernel
    · rw [e] at g4 ⊢
      have g4 : CellRead (pyStrInt m) c4 := g4
      have hm := parseNum_pyStrInt m
      cases c4 with
      | text t =>
        refine Or.inl ⟨t, rfl, ?_⟩
        rw [g4.1]
        show Sub.tryInt (.text (natDigits m)) = _
        rw [Sub.tryInt, if_pos ⟨natDigits_ne_nil m, by simpa using natDigits_all m⟩, digitsVal_natDigits]
      | num x => exact Or.inr ⟨m, by rw [whole_read g4], rfl⟩
      | nan => rw [missing_number _ g4] at hm; cases hm
      | bool b => rw [bool_number b _ g4] at hm; cases hm
  have n1 := cellNamed_all c0 (.num (.int ts)) c2 (.text c.prop.scope.name) c4 (.text n) (.text c.update.name) c7 c8
  obtain ⟨n1, n2, n3, n4, n5, n6, n7, n8⟩ := n1
  have e2 : (c2 = .nan ∧ c.event = none) ∨ ∃ e, c2 = .text e.name ∧ c.event = some e := by
    cases he : c.event with
    | none => rw [he] at g2; exact Or.inl ⟨empty_read g2, rfl⟩
    | some e => rw [he] at g2; exact Or.inr ⟨e, plain_of (event_plain e).1 _ g2, rfl⟩
  have key : ∀ (ev : Option Str) (sub : Sub), ev = c.event.map EventType.name → sub.tryInt = c.sub →
      Cmd.fromRecord ⟨some ts, ev, c.prop.scope.name, sub, n, c.update.name, c7, c8⟩ =
      .ok { c with value := y, state := z, timestamp := some ts } := by
    intro ev sub hev hsub
    rw [Cmd.fromRecord]
    simp only [scope_ofName, update_ofName, hsub, hev]
    show (View.byName c.prop.scope n >>= _) = _
    rw [hb]
    simp only [bind, Except.bind, y1, z1]
    cases he : c.event with
    | none => simp only [Option.map_none, pure, Except.pure]
    | some e => simp only [Option.map_some, event_ofName, pure, Except.pure]
  refine ⟨{ c with value := y, state := z, timestamp := some ts }, ?_, ?_⟩
  · unfold csvCommand
    simp only [n1, n2, n3, n4, n5, n6, n7, n8, bind, Except.bind, pure, Except.pure, Cell.asName]
    rcases e2 with ⟨rfl, he⟩ | ⟨e, rfl, he⟩ <;> rcases e4 with ⟨s, rfl, e4⟩ | ⟨m, rfl, e4⟩ <;>
      exact key _ _ (by rw [he]; rfl) e4
  · refine ⟨rfl, rfl, rfl, hts.symm, rfl, ?_, ?_, ?_⟩
    · intro hne
      have : k ≠ .text := by rintro rfl; exact hne hk
      exact ⟨y2 this, z2 this⟩
    · intro htx
      have := kind_unique hk htx
      exact ⟨y3 this, z3 this, y4 this, z4 this⟩
    · intro htx
      have := kind_unique hk htx
      exact ⟨y5 this, z5 this⟩

theorem forall2_mapM {α β γ : Type} {f : β → Except PyErr γ} {R : α → γ → Prop} {as : List α} {bs : List β}
    (h : List.Forall₂ (fun a b => ∃ c, f b = .ok c ∧ R a c) as bs) : ∃ cs, bs.mapM f = .ok cs ∧ List.Forall₂ R as cs := by
  induction h with
  | nil => exact ⟨[], rfl, .nil⟩
  | cons h _ ih =>
    obtain ⟨c, h1, h2⟩ := h
    obtain ⟨cs, h3, h4⟩ := ih
    refine ⟨c :: cs, ?_, .cons h2 h4⟩
    rw [List.mapM_cons, h1, h3]
    rfl

theorem records_made (sh : Val → Str) (cs : List Cmd) (hc : ∀ c ∈ cs, Storable c) :
    ∃ rs, cs.mapM (Cmd.toRecord sh) = .ok rs ∧ List.Forall₂ (fun c r => c.toRecord sh = .ok r) cs rs := by
  induction cs with
  | nil => exact ⟨[], rfl, .nil⟩
  | cons c cs ih =>
    obtain ⟨rs, h1, h2⟩ := ih (fun x hx => hc x (by simp [hx]))
    obtain ⟨k, hk⟩ := (hc c (by simp)).kind
    obtain ⟨n, hn, _⟩ := name_kind ⟨k, hk⟩
    have h3 := toRecord_eq sh c hk n hn
    refine ⟨_, ?_, .cons h3 h2⟩
    rw [List.mapM_cons, h3, h1]
    rfl

/-- the texts of a row can be written -/
theorem fields_ok (sh : Val → Str) {nl : Str} {c : Cmd} (hc : Storable c)
    (ht : HasKind c.prop .text → '\r' ∈ nl ∨ ('\r' ∉ pyStrVal sh c.value ∧ '\r' ∉ pyStrVal sh c.state)) {r : Rec}
    (hr : c.toRecord sh = .ok r) (i : Nat) : ∀ s ∈ recFields true i r, FieldOk nl s := by
  obtain ⟨⟨k, hk⟩, hv, hs, hsub, ⟨ts, hts, _⟩⟩ := hc
  obtain ⟨n, hn, hb⟩ := name_kind ⟨k, hk⟩
  have hnp : '\r' ∉ n := by
    obtain ⟨s, m, hm, e⟩ := hk
    have := table_name _ hm
    rw [e, this] at hn
    injection hn with hn
    rw [← hn]
    exact (property_plain _ hm).2
  rw [toRecord_eq sh c hk n hn, Except.ok.injEq] at hr
  subst hr
  have text : ∀ v, (v = c.value ∨ v = c.state) → FieldOk nl (if k = .text then pyStrVal sh v else jsonDumps v) := by
    intro v hv h
    split at h
    · next hkt =>
      rcases ht (hkt ▸ hk) with h' | h'
      · exact h'
      · rcases hv with rfl | rfl
        · exact absurd h h'.1
        · exact absurd h h'.2
    · exact absurd h (dumps_chars v)
  intro s hmem
  unfold recFields at hmem
  simp only [List.mem_cons, List.not_mem_nil, or_false] at hmem
  rcases hmem with rfl | rfl | rfl | rfl | rfl | rfl | rfl | rfl | rfl
  · intro h
    exact absurd (natDigits_all i _ h) (by decide)
  · rw [hts]
    exact fun h => absurd h (pyStrInt_not_mem ts _ (by decide) (by decide))
  · cases he : c.event with
    | none => exact fun h => by cases h
    | some e => exact fun h => absurd h (event_plain e).2
  · exact fun h => absurd h (scope_plain _).2
  · rcases hsub with e | ⟨m, e⟩
    · rw [e]; exact fun h => absurd h (by decide)
    · rw [e]; exact fun h => absurd h (pyStrInt_not_mem m _ (by decide) (by decide))
  · exact fun h => absurd h hnp
  · exact fun h => absurd h (update_plain _).2
  · exact text _ (Or.inl rfl)
  · exact text _ (Or.inr rfl)

/-- **C97.** A table of commands written to a CSV file is read back from it: there is one command for every command, in the same
    order, and it is the same, except that texts that look like a missing value, a number or a truth value may have changed.
    This does not depend on how pandas guesses types, and holds for texts with commas, quotes and ends of line; carriage returns
    need a system that ends lines with them. -/
theorem C97_file (showVal : Val → Str) (nl : Str) (hnl : nl = "\n".toList ∨ nl = "\r\n".toList)
    (pandas : List (List Str) → List (List Cell)) (hp : PandasReads pandas) (cs : List Cmd) (hc : ∀ c ∈ cs, Storable c)
    (ht : ∀ c ∈ cs, HasKind c.prop .text → '\r' ∈ nl ∨ ('\r' ∉ pyStrVal showVal c.value ∧ '\r' ∉ pyStrVal showVal c.state)) :
    ∃ rs cs', cs.mapM (Cmd.toRecord showVal) = .ok rs ∧ readCleanCsv pandas (commandCsv nl rs) = .ok cs' ∧
      List.Forall₂ (ReadAs showVal) cs cs' := by
  have hnl : LineEnd nl := hnl
  obtain ⟨rs, h1, h2⟩ := records_made showVal cs hc
  refine ⟨rs, ?_⟩
  by_cases hrs : rs = []
  · subst hrs
    cases h2
    have h3 : csvRows (commandCsv nl []) = .ok [[[]]] := by rcases hnl with rfl | rfl <;> decide +kernel
    have h4 : pandas [] = [] := by
      have := hp.cells []
      cases hq : pandas [] with
      | nil => rfl
      | cons => rw [hq] at this; cases this
    refine ⟨[], h1, ?_, .nil⟩
    unfold readCleanCsv
    rw [h3]
    simp only [bind, Except.bind, List.all_nil, if_true, h4]
    rfl
  · have hall : rs.all (fun r => r.timestamp.isSome) = true := by
      rw [List.all_eq_true]
      intro r hr
      obtain ⟨c, hcm, hcr⟩ : ∃ c ∈ cs, c.toRecord showVal = .ok r := by
        clear h1 hrs
        induction h2 with
        | nil => cases hr
        | cons h _ ih =>
          rcases List.mem_cons.1 hr with rfl | hr
          · exact ⟨_, by simp, h⟩
          · obtain ⟨c, h1, h2⟩ := ih (fun x hx => hc x (by simp [hx])) (fun x hx => ht x (by simp [hx])) hr
            exact ⟨c, by simp [h1], h2⟩
      obtain ⟨k, hk⟩ := (hc c hcm).kind
      obtain ⟨n, hn, _⟩ := name_kind ⟨k, hk⟩
      rw [toRecord_eq showVal c hk n hn, Except.ok.injEq] at hcr
      obtain ⟨ts, hts, _⟩ := (hc c hcm).timestamp
      rw [← hcr]
      simp [hts]
    have hrows : ∀ k, List.Forall₂ (fun c row => Storable c ∧ ∃ i r, c.toRecord showVal = .ok r ∧ row = recFields true i r ∧
        ∀ s ∈ row, FieldOk nl s) cs ((rs.zipIdx k).map (fun p => recFields true p.2 p.1)) := by
      clear h1 hrs hall
      induction h2 with
      | nil => intro k; exact .nil
      | cons h _ ih =>
        intro k
        rw [List.zipIdx_cons, List.map_cons]
        exact .cons ⟨hc _ (by simp), _, _, h, rfl, fields_ok showVal (hc _ (by simp)) (ht _ (by simp)) h _⟩
          (ih (fun x hx => hc x (by simp [hx])) (fun x hx => ht x (by simp [hx])) (k + 1))
    replace hrows := hrows 0
    unfold commandCsv
    rw [if_neg hrs, hall]
    generalize (rs.zipIdx 0).map (fun p => recFields true p.2 p.1) = rows at hrows
    have hmem : ∀ row ∈ rows, ∃ c i r, Storable c ∧ c.toRecord showVal = .ok r ∧ row = recFields true i r ∧ ∀ s ∈ row, FieldOk nl s := by
      intro row hrow
      clear h1 h2 hrs hall hc ht
      induction hrows with
      | nil => cases hrow
      | cons h _ ih =>
        rcases List.mem_cons.1 hrow with rfl | hrow
        · obtain ⟨a, i, r, b, c, d⟩ := h
          exact ⟨_, i, r, a, b, c, d⟩
        · exact ih hrow
    have h3 : csvRows (csvText nl (([] :: commandFieldNames) :: rows)) = .ok (([] :: commandFieldNames) :: rows) := by
      apply csvRows_text hnl
      · intro r hr
        rcases List.mem_cons.1 hr with rfl | hr
        · decide
        · obtain ⟨c, i, r', _, _, rfl, _⟩ := hmem r hr
          show 2 ≤ 9
          decide
      · intro r hr
        rcases List.mem_cons.1 hr with rfl | hr
        · have : ∀ s ∈ ([] : Str) :: commandFieldNames, '\r' ∉ s := by decide +kernel
          exact fun s hs h => absurd h (this s hs)
        · obtain ⟨_, _, _, _, _, _, h⟩ := hmem r hr
          exact h
    have h4 : rows.all (fun r => decide (r.length = (([] : Str) :: commandFieldNames).length)) = true := by
      rw [List.all_eq_true]
      intro r hr
      obtain ⟨c, i, r', _, _, rfl, _⟩ := hmem r hr
      rfl
    have h5 := hp.cells rows
    have h6 := hp.whole rows 1 (by
      intro row hrow
      obtain ⟨c, i, r, hs, hr, rfl, _⟩ := hmem row hrow
      obtain ⟨k, hk⟩ := hs.kind
      obtain ⟨n, hn, _⟩ := name_kind ⟨k, hk⟩
      rw [toRecord_eq showVal c hk n hn, Except.ok.injEq] at hr
      obtain ⟨ts, hts, hlt⟩ := hs.timestamp
      refine ⟨ts, hlt, ?_⟩
      rw [← hr]
      show some (timeText true c.timestamp) = _
      rw [hts]
      rfl)
    have h7 : List.Forall₂ (fun c cells => ∃ c', csvCommand ([] :: commandFieldNames) cells = .ok c' ∧ ReadAs showVal c c') cs (pandas rows) := by
      generalize pandas rows = table at h5 h6
      clear h1 h2 hrs hall hc ht hmem h3 h4
      induction hrows generalizing table with
      | nil => cases h5; exact .nil
      | cons h _ ih =>
        cases h5 with
        | cons a b =>
          obtain ⟨hs, i, r, hr, rfl, _⟩ := h
          exact .cons (row_read showVal _ hs hr i a (h6 _ (by simp))) (ih _ b (fun x hx => h6 x (by simp [hx])))
    obtain ⟨cs', h8, h9⟩ := forall2_mapM h7
    refine ⟨cs', h1, ?_, h9⟩
    unfold readCleanCsv
    rw [h3]
    simp only [bind, Except.bind, h4, if_true]
    exact h8

theorem stamped (left : Ctx → TEvent → Ctx) (strict : Bool) (ts : List TEvent) (ctx : Ctx) (cs : List Cmd)
    (h : (listAll left strict ctx ts).2 = .ok cs) : ∀ c ∈ cs, ∃ t ∈ ts, c.timestamp = some (t.timestamp : Int) := by
  induction ts generalizing ctx cs with
  | nil => simp only [listAll, Except.ok.injEq] at h; subst h; intro c hc; cases hc
  | cons t ts ih =>
    rw [listAll_cons] at h
    cases e : callTranslator strict ctx t with
    | error y => rw [e] at h; cases h
    | ok r =>
      obtain ⟨c1, l⟩ := r
      rw [e] at h
      simp only at h
      cases er : (listAll left strict c1 ts).2 with
      | error y => rw [er] at h; cases h
      | ok o1 =>
        rw [er] at h
        simp only [Except.map, Except.ok.injEq] at h
        subst h
        intro c hc
        rcases List.mem_append.1 hc with hc | hc
        · exact ⟨t, by simp, (C88_phrase strict ctx c1 t l e c hc).1⟩
        · obtain ⟨u, hu, h'⟩ := ih c1 o1 er c hc
          exact ⟨u, by simp [hu], h'⟩

theorem record_storable (left : Ctx → TEvent → Ctx) (ctx : Ctx) (events : List TEvent) (hseat : ∀ t ∈ events, Seated t.ev)
    (htime : ∀ t ∈ events, t.timestamp < 2 ^ 63) (cs : List Cmd) (h : (toCommands left false ctx events).2 = .ok cs) :
    ∀ c ∈ cs, Storable c := by
  intro c hc
  obtain ⟨s', h'⟩ := carried_all left false events hseat ctx.clear sound_nil cs h
  obtain ⟨k, hk⟩ := List.getElem?_of_mem hc
  obtain ⟨hf, s0, s, _, hi, _, _, _, hst⟩ := carried_at h' hk
  obtain ⟨hv, sc, n, kd, htab, hp, hsh, hsub⟩ := hf
  obtain ⟨t, ht, hts⟩ := stamped left false events ctx.clear cs h c hc
  refine ⟨⟨kd, sc, n, htab, hp⟩, hv, hst, ?_, ⟨_, hts, ?_⟩⟩
  · rcases hsub with ⟨_, p, e⟩ | ⟨_, e⟩
    · exact Or.inr ⟨p.val, e⟩
    · exact Or.inl e
  · have := htime t ht
    rw [Int.natAbs_natCast]
    exact this

/-- **C97.** `paifu-extract` writes a file for every record that can be translated, and the file, read as a table of commands,
    gives the commands of the record.  If it cannot be translated, that exception is raised and there is no file. -/
theorem C97_record (showVal : Val → Str) (nl : Str) (hnl : nl = "\n".toList ∨ nl = "\r\n".toList)
    (pandas : List (List Str) → List (List Cell)) (hp : PandasReads pandas) (left : Ctx → TEvent → Ctx) (ctx : Ctx)
    (events : List TEvent) (hseat : ∀ t ∈ events, Seated t.ev) (htime : ∀ t ∈ events, t.timestamp < 2 ^ 63) :
    (∀ x, (toCommands left false ctx events).2 = .error x → convertFile showVal nl left ctx events = .error x) ∧
    ∀ cs, (toCommands left false ctx events).2 = .ok cs →
      (∀ c ∈ cs, HasKind c.prop .text → '\r' ∈ nl ∨ ('\r' ∉ pyStrVal showVal c.value ∧ '\r' ∉ pyStrVal showVal c.state)) →
      ∃ text cs', convertFile showVal nl left ctx events = .ok text ∧ readCleanCsv pandas text = .ok cs' ∧
        List.Forall₂ (ReadAs showVal) cs cs' := by
  constructor
  · intro x hx
    unfold convertFile toCommandRecords
    rw [hx]
    rfl
  · intro cs h ht
    obtain ⟨rs, cs', h1, h2, h3⟩ := C97_file showVal nl hnl pandas hp cs (record_storable left ctx events hseat htime cs h) ht
    refine ⟨_, cs', ?_, h2, h3⟩
    unfold convertFile toCommandRecords
    rw [h]
    simp only [bind, Except.bind, h1, pure, Except.pure]

/-! ### A reader -/

/-- the whole number a text writes, in the way Python does -/
def wholeOf (s : Str) : Option Int :=
  match pyInt s with
  | .ok n => if pyStrInt n = s then some n else none
  | .error _ => none

/-- columns of whole numbers are read as numbers, other columns as texts and missing values -/
def simplePandas (rows : List (List Str)) : List (List Cell) :=
  rows.map (fun row => row.zipIdx.map (fun p =>
    if rows.all (fun r => match r[p.2]? with | some s => (wholeOf s).isSome | none => true) then
      match wholeOf p.1 with
      | some n => .num (.int n)
      | none => .text []
    else if p.1 ∈ missingTexts then .nan else .text p.1))

theorem wholeOf_iff (s : Str) (n : Int) : wholeOf s = some n ↔ s = pyStrInt n := by
  unfold wholeOf
  constructor
  · split
    · split
      · next e => intro h; injection h with h; rw [← h, e]
      · intro h; cases h
    · intro h; cases h
  · rintro rfl
    rw [pyInt_pyStrInt]
    simp

theorem int_like (n : Int) : numberLike (pyStrInt n) = true := by
  have h1 : ∀ m : Nat, (natDigits m).any isDigit = true := by
    intro m
    obtain ⟨c, t, e⟩ := List.exists_cons_of_ne_nil (natDigits_ne_nil m)
    rw [List.any_eq_true]
    exact ⟨c, by rw [e]; simp, natDigits_all m c (by rw [e]; simp)⟩
  have h2 : ∀ m : Nat, (natDigits m).all (fun c => isDigit c || "+-.eE \t".toList.contains c) = true := by
    intro m
    rw [List.all_eq_true]
    intro c hc
    rw [natDigits_all m c hc, Bool.true_or]
  unfold numberLike pyStrInt
  split
  · rw [List.all_cons, List.any_cons, h1, h2]
    rfl
  · rw [h1, h2]
    rfl

theorem simple_cell (rows : List (List Str)) (row : List Str) (hrow : row ∈ rows) (k : Nat) (l : List Str)
    (hl : ∀ i s, l[i]? = some s → row[k + i]? = some s) :
    List.Forall₂ CellRead l ((l.zipIdx k).map (fun p =>
    if rows.all (fun r => match r[p.2]? with | some s => (wholeOf s).isSome | none => true) then
      match wholeOf p.1 with
      | some n => Cell.num (.int n)
      | none => .text []
    else if p.1 ∈ missingTexts then .nan else .text p.1)) := by
  induction l generalizing k with
  | nil => exact .nil
  | cons s l ih =>
    rw [List.zipIdx_cons, List.map_cons]
    refine .cons ?_ (ih (k + 1) (fun i t h => by
      have := hl (i + 1) t (by simpa using h)
      rwa [show k + (i + 1) = k + 1 + i by omega] at this))
    show CellRead s (if _ then _ else _)
    split
    · next h =>
      have h0 := List.all_eq_true.1 h row hrow
      have h1 : row[k]? = some s := hl 0 s rfl
      simp only [h1] at h0
      obtain ⟨n, hn⟩ := Option.isSome_iff_exists.1 h0
      simp only [hn]
      have e := (wholeOf_iff s n).1 hn
      refine ⟨trivial, ?_, ?_⟩
      · rw [e]; exact int_like n
      · intro q hq
        rw [e] at hq
        exact writes_unique hq (numText_writes (.int n))
    · split
      · next h => exact h
      · next h => exact ⟨rfl, h⟩

theorem simple_reads : PandasReads simplePandas := by
  constructor
  · intro rows
    unfold simplePandas
    rw [List.forall₂_map_right_iff]
    rw [List.forall₂_same]
    intro row hrow
    exact simple_cell rows row hrow 0 row (fun i s h => by simpa using h)
  · intro rows j h row hrow
    unfold simplePandas at hrow
    obtain ⟨r, hr, rfl⟩ := List.mem_map.1 hrow
    obtain ⟨n, _, hn⟩ := h r hr
    refine ⟨.int n, ?_⟩
    rw [List.getElem?_map, List.getElem?_zipIdx, hn]
    simp only [Option.map_some, Nat.zero_add, Option.some.injEq]
    rw [if_pos]
    · rw [(wholeOf_iff _ n).2 rfl]
    · rw [List.all_eq_true]
      intro x hx
      obtain ⟨m, _, hm⟩ := h x hx
      rw [hm]
      simp only [(wholeOf_iff _ m).2 rfl, Option.isSome_some]

/-- player 0 is called `name` -/
def nameCmd (name : Str) : Cmd :=
  { prop := view .player "name", update := .replace, event := none, sub := .num 0, value := .str name, state := .str name, timestamp := some 1 }

theorem nameCmd_storable (name : Str) : Storable (nameCmd name) :=
  ⟨⟨.text, .player, "name", by decide, rfl⟩, trivial, trivial, Or.inr ⟨0, rfl⟩, ⟨1, rfl, by decide⟩⟩

theorem nameCmd_text (name : Str) : HasKind (nameCmd name).prop .text := ⟨.player, "name", by decide, rfl⟩

/-- **C97.** A player called `NA` (or `null`, `None`, `nan`, `N/A`) is called `nan` in the table that is read back, whatever pandas
    does with the other cells. -/
theorem C97_missing_name (nl : Str) (hnl : nl = "\n".toList ∨ nl = "\r\n".toList) (pandas : List (List Str) → List (List Cell))
    (hp : PandasReads pandas) :
    ∃ rs c', [nameCmd "NA".toList].mapM (Cmd.toRecord (fun _ => [])) = .ok rs ∧
      readCleanCsv pandas (commandCsv nl rs) = .ok [c'] ∧ c'.value = .str "nan".toList := by
  obtain ⟨rs, cs', h1, h2, h3⟩ := C97_file (fun _ => []) nl hnl pandas hp [nameCmd "NA".toList]
    (by simpa using nameCmd_storable _) (by
      intro c hc _
      rw [List.mem_singleton.1 hc]
      exact Or.inr ⟨by decide, by decide⟩)
  cases h3 with
  | cons a b =>
    cases b
    exact ⟨rs, _, h1, h2, (a.text (nameCmd_text _)).2.2.1 (by decide +kernel)⟩

/-- **C97.** Where lines end with a line feed alone, a name with a carriage return breaks the file: instead of the header and
    one row it has four rows. -/
theorem C97_carriage_return : ∃ rs rows, [nameCmd "a\rb".toList].mapM (Cmd.toRecord (fun _ => [])) = .ok rs ∧
    csvRows (commandCsv "\n".toList rs) = .ok rows ∧ rows.length = 4 := by
  have h : ([nameCmd "a\rb".toList].mapM (Cmd.toRecord (fun _ => [])) >>= fun rs =>
      (csvRows (commandCsv "\n".toList rs)).map List.length) = .ok 4 := by decide +kernel
  rw [bind_ok] at h
  obtain ⟨rs, h1, h2⟩ := h
  cases h3 : csvRows (commandCsv "\n".toList rs) with
  | error x => rw [h3] at h2; cases h2
  | ok rows =>
    rw [h3] at h2
    exact ⟨rs, rows, h1, h3, by simpa [Except.map] using h2⟩

/-- names with commas, quotes and ends of line come back -/
example (nl : Str) (hnl : nl = "\n".toList ∨ nl = "\r\n".toList) :
    ∃ rs c', [nameCmd "a,\"b\"\nc".toList].mapM (Cmd.toRecord (fun _ => [])) = .ok rs ∧
      readCleanCsv simplePandas (commandCsv nl rs) = .ok [c'] ∧ c'.value = .str "a,\"b\"\nc".toList := by
  obtain ⟨rs, cs', h1, h2, h3⟩ := C97_file (fun _ => []) nl hnl simplePandas simple_reads [nameCmd "a,\"b\"\nc".toList]
    (by simpa using nameCmd_storable _) (by
      intro c hc _
      rw [List.mem_singleton.1 hc]
      exact Or.inr ⟨by decide, by decide⟩)
  cases h3 with
  | cons a b =>
    cases b
    exact ⟨rs, _, h1, h2, (a.text (nameCmd_text _)).1 (plain_of (by decide +kernel))⟩

set_option maxRecDepth 100000 in
/-- the game of C70 has a file, which is read back -/
example : ∃ cs text cs', (toCommands (fun c _ => c) false {} sampleTable).2 = .ok cs ∧ cs.length = 132 ∧
    convertFile (fun _ => []) "\n".toList (fun c _ => c) {} sampleTable = .ok text ∧ readCleanCsv simplePandas text = .ok cs' ∧
    List.Forall₂ (ReadAs (fun _ => [])) cs cs' := by
  have hseat : ∀ t ∈ sampleTable, Seated t.ev := by
    have h : ∀ t ∈ sampleTable, seatedB t.ev = true := by decide +kernel
    exact fun t ht => seated_of_B (h t ht)
  have htime : ∀ t ∈ sampleTable, t.timestamp < 2 ^ 63 := by decide +kernel
  have hl := sampleTable_length
  have hcr : ∀ cs, (toCommands (fun c _ => c) false {} sampleTable).2 = .ok cs →
      ∀ c ∈ cs, '\r' ∉ pyStrVal (fun _ => []) c.value ∧ '\r' ∉ pyStrVal (fun _ => []) c.state := by
    have : ((toCommands (fun c _ => c) false {} sampleTable).2.map (fun cs => cs.all (fun c =>
        !(pyStrVal (fun _ => []) c.value).contains '\r' && !(pyStrVal (fun _ => []) c.state).contains '\r'))) = .ok true := by
      decide +kernel
    intro cs h c hc
    rw [h] at this
    simp only [Except.map, Except.ok.injEq] at this
    have := List.all_eq_true.1 this c hc
    simpa using this
  cases h : (toCommands (fun c _ => c) false {} sampleTable).2 with
  | error x => rw [h] at hl; cases hl
  | ok cs =>
    rw [h] at hl
    simp only [Except.map, Except.ok.injEq] at hl
    obtain ⟨text, cs', a, b, d⟩ := (C97_record (fun _ => []) "\n".toList (Or.inl rfl) simplePandas simple_reads (fun c _ => c) {} sampleTable
      hseat htime).2 cs h (fun c hc _ => Or.inr (hcr cs h c hc))
    exact ⟨cs, text, cs', rfl, hl, a, b, d⟩

end Verif.Props
