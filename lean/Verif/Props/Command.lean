import Verif.Proofs.Command

/-! Properties C41, C45 and C46: command records, property types, list values. -/
namespace Verif.Props
open Verif.Py Verif.Model Verif.Spec Verif.Proofs

/-- **C41**: a command is written to a record, the record is read back to a command with the same property,
    update method, event, timestamp and sub-scope; value and state come back as they were, except that text
    properties keep only their text; and the command read back is written to the same record.  `showVal` is what
    `str` makes of values that are no texts. -/
theorem C41_round_trip (showVal : Val → Str) (c : Cmd) (k : PropKind) (hk : HasKind c.prop k)
    (hv : ValOk c.value) (hs : ValOk c.state) (hsub : SubOk c.sub) :
    ∃ r c', c.toRecord showVal = .ok r ∧ Cmd.fromRecord r = .ok c' ∧ c'.toRecord showVal = .ok r ∧
      c'.prop = c.prop ∧ c'.update = c.update ∧ c'.event = c.event ∧ c'.timestamp = c.timestamp ∧ c'.sub = c.sub ∧
      (k ≠ .text → c'.value = c.value ∧ c'.state = c.state) ∧
      (k = .text → c'.value = .str (pyStrVal showVal c.value) ∧ c'.state = .str (pyStrVal showVal c.state)) := by
  obtain ⟨n, hn, hb⟩ := name_kind ⟨k, hk⟩
  refine ⟨_, { c with value := readBack showVal k c.value, state := readBack showVal k c.state },
    toRecord_eq showVal c hk n hn, fromRecord_eq showVal c hk n hb hv hs hsub, ?_, rfl, rfl, rfl, rfl, rfl, ?_, ?_⟩
  · have := toRecord_eq showVal { c with value := readBack showVal k c.value, state := readBack showVal k c.state }
      (k := k) hk n hn
    rw [this]
    simp only [readBack_str]
  · intro h; simp [readBack, h]
  · intro h; simp [readBack, h]

/-- Two commands on properties that are no texts with the same record are the same command. -/
theorem C41_injective (showVal : Val → Str) (c c' : Cmd) (k k' : PropKind) (hk : HasKind c.prop k) (hk' : HasKind c'.prop k')
    (ht : k ≠ .text) (ht' : k' ≠ .text) (hv : ValOk c.value) (hs : ValOk c.state) (hsub : SubOk c.sub)
    (hv' : ValOk c'.value) (hs' : ValOk c'.state) (hsub' : SubOk c'.sub)
    (h : c.toRecord showVal = c'.toRecord showVal) : c = c' := by
  obtain ⟨r, d, h1, h2, _, p1, p2, p3, p4, p5, p6, _⟩ := C41_round_trip showVal c k hk hv hs hsub
  obtain ⟨r', d', h1', h2', _, q1, q2, q3, q4, q5, q6, _⟩ := C41_round_trip showVal c' k' hk' hv' hs' hsub'
  rw [h1, h1'] at h
  injection h with h
  subst h
  rw [h2] at h2'
  injection h2' with h2'
  subst h2'
  have e1 := (p6 ht)
  have e2 := (q6 ht')
  cases c; cases c'; simp_all

/-- Text properties do not keep `None` or a number: they come back as texts. -/
theorem C41_text_lost (showVal : Val → Str) (c : Cmd) (hk : HasKind c.prop .text) (hv : ValOk c.value)
    (hs : ValOk c.state) (hsub : SubOk c.sub) (hn : c.value = .none) :
    ∃ r c', c.toRecord showVal = .ok r ∧ Cmd.fromRecord r = .ok c' ∧ c'.value ≠ c.value := by
  obtain ⟨r, c', h1, h2, _, _, _, _, _, _, _, h3⟩ := C41_round_trip showVal c .text hk hv hs hsub
  refine ⟨r, c', h1, h2, ?_⟩
  rw [(h3 rfl).1, hn]
  simp

/-- **C41.** Whatever the record, a command read from it has the names that stand in the record: the scope, the property (or a group
    of properties, which also have names), the kind of update, the event and the time.  So a record with an unknown name is refused. -/
theorem C41_names (r : Rec) (c : Cmd) (h : Cmd.fromRecord r = .ok c) :
    c.prop.scope.name = r.scope ∧ (c.prop.name = some r.property ∨ "type__".toList <+: r.property) ∧ c.update.name = r.update ∧
      c.event.map EventType.name = r.event ∧ c.timestamp = r.timestamp := by
  have hs : ∀ {x s}, Scope.ofName x = .ok s → s.name = x := by
    intro x s h
    unfold Scope.ofName at h
    split at h
    · rename_i e; rw [e]; cases h; rfl
    · split at h
      · rename_i e; rw [e]; cases h; rfl
      · split at h
        · rename_i e; rw [e]; cases h; rfl
        · cases h
  have hu : ∀ {x u}, Update.ofName x = .ok u → u.name = x := by
    intro x u h
    unfold Update.ofName at h
    split at h
    · rename_i v e; cases h; simpa using List.find?_some e
    · cases h
  have he : ∀ {x u}, EventType.ofName x = .ok u → u.name = x := by
    intro x u h
    unfold EventType.ofName at h
    split at h
    · rename_i v e; cases h; simpa using List.find?_some e
    · cases h
  have hname : ∀ sc, ∀ n ∈ propertyNames sc, (Verif.Model.view sc n).name = some n.toList ∧ (Verif.Model.view sc n).scope = sc := by
    intro sc; cases sc <;> decide +kernel
  have hp : ∀ {sc x v}, View.byName sc x = .ok v → v.scope = sc ∧ (v.name = some x ∨ "type__".toList <+: x) := by
    intro sc x v h
    unfold View.byName at h
    split at h
    · rename_i n e
      have e1 := List.find?_some e
      obtain ⟨a, b⟩ := hname sc n (List.mem_of_find?_eq_some e)
      cases h
      rw [decide_eq_true_eq] at e1
      exact ⟨b, .inl (by rw [a, e1])⟩
    · split at h
      · rename_i t e
        have e1 := List.find?_some e
        cases h
        rw [decide_eq_true_eq] at e1
        exact ⟨rfl, .inr ⟨t.1.toList, by rw [← e1, String.toList_append]⟩⟩
      · cases h
  rw [Cmd.fromRecord] at h
  cases hev : r.event with
  | none =>
    simp only [bind_ok, pure_ok, hev] at h
    obtain ⟨sc, h1, v, h2, _, rfl, u, h4, _, _, _, _, rfl⟩ := h
    exact ⟨by rw [(hp h2).1]; exact hs h1, (hp h2).2, hu h4, rfl, rfl⟩
  | some x =>
    simp only [bind_ok, pure_ok, hev] at h
    obtain ⟨sc, h1, v, h2, ev, h3, o, h3', u, h4, _, _, _, _, rfl⟩ := h
    subst h3'
    exact ⟨by rw [(hp h2).1]; exact hs h1, (hp h2).2, hu h4, by rw [Option.map_some, he h3], rfl⟩

/-- instance: a record that is read -/
example : (Cmd.fromRecord ⟨some 3, some "draw".toList, "player".toList, .num 2, "hand".toList, "ADD".toList, .text "[]".toList,
    .nan⟩).toOption.isSome = true := by decide +kernel

/-- A sub-scope id that is a text of digits comes back as a number. -/
theorem C41_digit_sub (r : Rec) (c : Cmd) (n : Nat) (hr : r.sub = .text (natDigits n)) (h : Cmd.fromRecord r = .ok c) :
    c.sub = .num n := by
  have e : Sub.tryInt (.text (natDigits n)) = .num n := by
    rw [Sub.tryInt, if_pos ⟨natDigits_ne_nil n, by simpa using natDigits_all n⟩, digitsVal_natDigits]
  rw [Cmd.fromRecord] at h
  cases he : r.event with
  | none =>
    simp only [bind_ok, pure_ok, hr, e, he] at h
    obtain ⟨_, _, _, _, _, _, _, _, _, _, _, _, h⟩ := h
    rw [← h]
  | some x =>
    simp only [bind_ok, pure_ok, hr, e, he] at h
    obtain ⟨_, _, _, _, _, _, _, _, _, _, _, _, _, _, h⟩ := h
    rw [← h]

/-- **C41.** What a cell that pandas has read as something else becomes in a text column: a missing cell the text `nan`, a flag
    `True` or `False`, a number its digits. -/
theorem C41_text_cells (v : View) (hk : HasKind v .text) :
    (∀ s, fromStr v (.text s) = .ok (.str s)) ∧ fromStr v .nan = .ok (.str ['n', 'a', 'n']) ∧
    fromStr v (.bool true) = .ok (.str ['T', 'r', 'u', 'e']) ∧ fromStr v (.bool false) = .ok (.str ['F', 'a', 'l', 's', 'e']) ∧
    ∀ n, fromStr v (.num (.int n)) = .ok (.str (pyStrInt n)) := by
  refine ⟨?_, ?_, ?_, ?_, ?_⟩ <;> intros <;> rw [fromStr_kind hk, if_pos rfl] <;> rfl

/-- instance: the name of a player is a text -/
example : HasKind (view .player "name") .text := ⟨.player, "name", by decide +kernel, rfl⟩

/-- A table cell that pandas has already turned into a number, a bool or NaN reads as the same value. -/
theorem C41_cells (v : View) (k : PropKind) (hk : HasKind v k) (ht : k ≠ .text) :
    fromStr v .nan = .ok .none ∧ (∀ b, fromStr v (.bool b) = .ok (.bool b)) ∧
      ∀ n, NumOk n → fromStr v (.num n) = .ok (.num n) := by
  refine ⟨?_, ?_, ?_⟩
  · rw [fromStr_kind hk, if_neg ht]; rfl
  · intro b
    rw [fromStr_kind hk, if_neg ht]
    have := loads_dumps (.bool b) trivial
    cases b
    · exact this
    · exact this
  · intro n hn
    rw [fromStr_kind hk, if_neg ht]
    exact loads_dumps (.num n) hn

/-- an example: a hand with a red five, an honour and a quoted text -/
def exampleCmd : Cmd :=
  { prop := view .player "hand", update := .replace, sub := .num 2, timestamp := some 7, event := some .draw,
    value := .list [.str "0m".toList, .str "E\"\n".toList, .num (.dec (-15) 1)], state := .bool true }

theorem example_hand : HasKind (view .player "hand") .tiles := ⟨.player, "hand", by decide +kernel, rfl⟩

example : HasKind exampleCmd.prop .tiles ∧ ValOk exampleCmd.value ∧ ValOk exampleCmd.state ∧ SubOk exampleCmd.sub := by
  refine ⟨example_hand, ?_, ?_, trivial⟩
  · simp [exampleCmd, ValOk, ValsOk, NumOk]
  · simp [exampleCmd, ValOk]

example : SubOk Sub.all := by
  intro h
  exact absurd (h.2 'a' (by decide +kernel)) (by decide)

/-- **C45**: the table lists every property of every view, in order and once, -/
theorem C45_table (s : Scope) : (kindTable.filter (fun r => decide (r.1 = s))).map (fun r => r.2.1) = propertyNames s := by
  cases s <;> decide +kernel

/-- every property has exactly one type member it belongs to, and its type is that of its kind, -/
theorem C45_one_type : ∀ r ∈ kindTable, (view r.1 r.2.1).type = .ok r.2.2.viewType ∧
    ((typeMembers r.1).filter (fun t => flagIn (view r.1 r.2.1).flag (typeFlag r.1 t.2))).length = 1 := by
  decide +kernel

/-- different properties of a view are different members -/
theorem C45_distinct (s : Scope) : (properties s).Nodup := by
  cases s <;> decide +kernel

/-- and every update does what its kind says: replacing and asserting give the command's value; adding is `+`;
    removing is removal from lists and `-` otherwise; the default is 0 for an index, `[]` for lists, an error
    otherwise; clearing is an error. -/
theorem C45_updates (c : Cmd) (k : PropKind) (hk : HasKind c.prop k) (old : Val) :
    newValue c old = match c.update with
      | .replace => .ok c.value
      | .assertEqualOrSet => .ok c.value
      | .add => old.add c.value
      | .remove => if k.isList then removeAll old c.value else old.sub c.value
      | .resetDefault => if k = .index then .ok (.num (.int 0)) else if k.isList then .ok (.list []) else .error .valueError
      | .clear => .error .valueError := by
  rw [newValue]
  cases c.update
  · rfl
  · rfl
  · exact add_kind hk _ _
  · exact remove_kind hk _ _
  · exact default_kind hk
  · rfl

/-- Comparing values of a property: tile lists as multisets, everything else with `==`. -/
theorem C45_equal (v : View) (k : PropKind) (hk : HasKind v k) (a b : Val) :
    (checkEqual v a b = .ok true ↔ Same k a b) ∧ (checkEqual v a b = .ok false ↔ Differ k a b) :=
  checkEqual_same hk a b

theorem canons_eq {l r : List Val} : Val.canons l = Val.canons r ↔
    l.length = r.length ∧ ∀ (i : Nat) a b, l[i]? = some a → r[i]? = some b → a.canon = b.canon := by
  induction l generalizing r with
  | nil =>
    cases r with
    | nil => simp [Val.canons]
    | cons => simp [Val.canons]
  | cons x l ih =>
    cases r with
    | nil => simp [Val.canons]
    | cons y r =>
      simp only [Val.canons, List.cons.injEq, List.length_cons, Nat.add_right_cancel_iff, ih]
      constructor
      · rintro ⟨h1, h2, h3⟩
        refine ⟨h2, ?_⟩
        intro i a b ha hb
        cases i with
        | zero =>
          simp only [List.getElem?_cons_zero, Option.some.injEq] at ha hb
          rw [← ha, ← hb]
          exact h1
        | succ i => exact h3 i a b (by simpa using ha) (by simpa using hb)
      · rintro ⟨h1, h2⟩
        exact ⟨h2 0 x y rfl rfl, h1, fun i a b ha hb => h2 (i + 1) a b (by simpa using ha) (by simpa using hb)⟩

/-- What `==` says of two values: it is an equivalence; texts, numbers and `None` are equal if they are the same, lists if they
    are equal item by item; `True` equals 1 and `False` 0, and otherwise values of different types differ. -/
theorem C45_python_equal :
    (∀ a : Val, a.eq a = true) ∧ (∀ a b : Val, a.eq b = b.eq a) ∧ (∀ a b c : Val, a.eq b = true → b.eq c = true → a.eq c = true) ∧
    (∀ s t, (Val.str s).eq (.str t) = true ↔ s = t) ∧ (∀ m n, (Val.num m).eq (.num n) = true ↔ m = n) ∧
    (∀ b c, (Val.bool b).eq (.bool c) = true ↔ b = c) ∧
    (∀ n, ((Val.bool true).eq (.num n) = true ↔ n = .int 1) ∧ ((Val.bool false).eq (.num n) = true ↔ n = .int 0)) ∧
    (∀ l r, (Val.list l).eq (.list r) = true ↔
      l.length = r.length ∧ ∀ (i : Nat) a b, l[i]? = some a → r[i]? = some b → a.eq b = true) ∧
    (∀ a, (Val.none.eq a = true ↔ a = .none)) ∧ (∀ s n, (Val.str s).eq (.num n) = false) ∧ (∀ s b, (Val.str s).eq (.bool b) = false) ∧
    (∀ l s, (Val.list l).eq (.str s) = false) ∧ (∀ l n, (Val.list l).eq (.num n) = false) ∧ (∀ l b, (Val.list l).eq (.bool b) = false) := by
  refine ⟨?_, ?_, ?_, ?_, ?_, ?_, ?_, ?_, ?_, ?_, ?_, ?_, ?_, ?_⟩
  · intro a; simp [Val.eq]
  · intro a b; simp only [Val.eq, eq_comm]
  · intro a b c h1 h2
    simp only [Val.eq, decide_eq_true_eq] at *
    exact h1.trans h2
  · intro s t; simp [Val.eq, Val.canon]
  · intro m n; simp [Val.eq, Val.canon]
  · intro b c; cases b <;> cases c <;> simp [Val.eq, Val.canon]
  · intro n; simp [Val.eq, Val.canon, eq_comm]
  · intro l r
    simp only [Val.eq, Val.canon, decide_eq_true_eq, Val.list.injEq]
    exact canons_eq
  · intro a; cases a <;> simp [Val.eq, Val.canon]
  · intro s n; simp [Val.eq, Val.canon]
  · intro s b; simp [Val.eq, Val.canon]
  · intro l s; simp [Val.eq, Val.canon]
  · intro l n; simp [Val.eq, Val.canon]
  · intro l b; simp [Val.eq, Val.canon]

/-- `[True, "1m"] == [1, "1m"]`, and `True != "True"` -/
example : (Val.list [.bool true, .str "1m".toList]).eq (.list [.num (.int 1), .str "1m".toList]) = true ∧
    (Val.bool true).eq (.str "True".toList) = false := by decide +kernel

/-- the two outcomes exclude each other -/
theorem C45_equal_apart (k : PropKind) (a b : Val) : ¬ (Same k a b ∧ Differ k a b) := by
  unfold Same Differ
  split
  · rintro ⟨⟨la, lb, h1, h2, h3⟩, ⟨la', lb', h4, h5, x, h6⟩⟩
    rw [h1] at h4
    rw [h2] at h5
    injection h4 with h4
    injection h5 with h5
    subst h4 h5
    exact h6 (h3 x)
  · rintro ⟨h1, h2⟩
    rw [h1] at h2
    exact absurd h2 (by simp)

example : Same .tiles (.list [.str "1m".toList, .str "2m".toList]) (.list [.str "2m".toList, .str "1m".toList]) ∧
    Differ .tiles (.list [.str "1m".toList]) .none := by
  refine ⟨⟨_, _, rfl, rfl, fun x => ?_⟩, ⟨_, _, rfl, rfl, .str "1m".toList, by decide +kernel⟩⟩
  rw [occ_cons, occ_cons, occ_cons, occ_cons]
  omega

/-- **C46**: removing from a list property.  If every value is there as often as it is to be removed, the result
    has exactly the others, in their order; -/
theorem C46_remove (c : Cmd) (k : PropKind) (hk : HasKind c.prop k) (hl : k.isList = true) (hu : c.update = .remove)
    (l vs : List Val) (hvs : c.value = .list vs) (h : ∀ x, occ x vs ≤ occ x l) :
    ∃ r, newValue c (.list l) = .ok (.list r) ∧ r.Sublist l ∧ ∀ x, occ x r = occ x l - occ x vs := by
  obtain ⟨r, h1, h2, h3⟩ := removeLoop_ok vs l h
  refine ⟨r, ?_, h2, fun x => by have := h3 x; omega⟩
  rw [C45_updates c k hk, hu]
  simp only [hl, if_true, hvs, removeAll, Val.iter, bind, Except.bind, h1]
  rfl

/-- otherwise `ValueError`. -/
theorem C46_missing (c : Cmd) (k : PropKind) (hk : HasKind c.prop k) (hl : k.isList = true) (hu : c.update = .remove)
    (l vs : List Val) (hvs : c.value = .list vs) (x : Val) (h : occ x l < occ x vs) :
    newValue c (.list l) = .error .valueError := by
  rw [C45_updates c k hk, hu]
  simp only [hl, if_true, hvs, removeAll, Val.iter, bind, Except.bind, removeLoop_err vs l x h]

/-- Adding values to a list property and removing them again leaves the same values equally often. -/
theorem C46_add_remove (ca cr : Cmd) (k : PropKind) (hk : HasKind ca.prop k) (hp : cr.prop = ca.prop) (hl : k.isList = true)
    (ha : ca.update = .add) (hr : cr.update = .remove) (l vs : List Val) (hva : ca.value = .list vs) (hvr : cr.value = .list vs) :
    newValue ca (.list l) = .ok (.list (l ++ vs)) ∧
      ∃ r, newValue cr (.list (l ++ vs)) = .ok (.list r) ∧ r.Sublist (l ++ vs) ∧ ∀ x, occ x r = occ x l := by
  refine ⟨?_, ?_⟩
  · rw [C45_updates ca k hk, ha, hva]
    rfl
  · obtain ⟨r, h1, h2, h3⟩ := C46_remove cr k (hp ▸ hk) hl hr (l ++ vs) vs hvr (fun x => by rw [occ_append]; omega)
    refine ⟨r, h1, h2, fun x => ?_⟩
    rw [h3, occ_append]
    omega

/-- two fives removed from a hand with three -/
example : newValue { prop := view .player "hand", update := .remove, value := .list [.str "5m".toList, .str "5m".toList] }
    (.list [.str "5m".toList, .str "1p".toList, .str "5m".toList, .str "5m".toList]) =
      .ok (.list [.str "1p".toList, .str "5m".toList]) := by decide +kernel

end Verif.Props
