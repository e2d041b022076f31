import Verif.Proofs.Json
import Verif.Proofs.Record
import Verif.Proofs.Counter
import Mathlib.Data.List.Perm.Subperm

/-! Property types, list removal and command records. -/
namespace Verif.Proofs
open Verif.Py Verif.Model Verif.Spec

/-! ### the table of properties -/

theorem table_type : ∀ r ∈ kindTable, (Verif.Model.view r.1 r.2.1).type = .ok r.2.2.viewType := by decide +kernel

theorem type_of_kind {v : View} {k : PropKind} (h : HasKind v k) : v.type = .ok k.viewType := by
  obtain ⟨s, n, hm, rfl⟩ := h
  exact table_type _ hm

theorem table_name : ∀ r ∈ kindTable, (Verif.Model.view r.1 r.2.1).name = some r.2.1.toList := by decide +kernel

theorem table_byName : ∀ r ∈ kindTable, View.byName r.1 r.2.1.toList = .ok (Verif.Model.view r.1 r.2.1) := by decide +kernel

theorem scope_ofName (s : Scope) : Scope.ofName s.name = .ok s := by cases s <;> decide +kernel
theorem update_ofName (u : Update) : Update.ofName u.name = .ok u := by cases u <;> decide +kernel
theorem event_ofName (e : EventType) : EventType.ofName e.name = .ok e := by cases e <;> decide +kernel

/-- what the method table gives for a view of type `t` -/
def lookupType (m : Method) (t : ViewType) : Except PyErr Func :=
  match funcTable.find? (fun e => decide (e.1.2 = m) && (match e.1.1 with | none => true | some x => flagIn t x)) with
  | some e => .ok e.2
  | none => .error .valueError

theorem go_eq (m : Method) (v : View) (t : ViewType) (h : v.type = .ok t)
    (l : List ((Option ViewType × Method) × Func)) :
    lookupFunc.go m (some v) l =
      match l.find? (fun e => decide (e.1.2 = m) && (match e.1.1 with | none => true | some x => flagIn t x)) with
      | some e => .ok e.2
      | none => .error .valueError := by
  induction l with
  | nil => rfl
  | cons e l ih =>
    obtain ⟨⟨typ, m'⟩, f⟩ := e
    rw [lookupFunc.go.eq_def, List.find?_cons]
    simp only
    by_cases hm : m' = m
    · rw [if_pos hm]
      cases typ with
      | none => simp [hm]
      | some x =>
        simp only [hm, decide_true, Bool.true_and]
        rw [h]
        cases hx : flagIn t x
        · simpa [bind, Except.bind, pure, Except.pure, hx] using ih
        · simp [bind, Except.bind, pure, Except.pure, hx]
    · rw [if_neg hm]
      simp [hm, ih]

theorem lookup_kind (m : Method) {v : View} {k : PropKind} (h : HasKind v k) :
    lookupFunc m (some v) = lookupType m k.viewType := by
  rw [lookupFunc]
  exact go_eq m v _ (type_of_kind h) funcTable

theorem lookup_default (k : PropKind) : lookupType .defaultValue k.viewType =
    (if k = .index then .ok .defaultIndex else if k.isList then .ok .emptyList else .error .valueError) := by
  cases k <;> decide +kernel
theorem lookup_equal (k : PropKind) : lookupType .checkEqual k.viewType =
    (if k = .tiles then .ok .tilesEqual else .ok .generalEqual) := by
  cases k <;> decide +kernel
theorem lookup_toStr (k : PropKind) : lookupType .toStr k.viewType =
    (if k = .text then .ok .plainStr else .ok .jsonDump) := by
  cases k <;> decide +kernel
theorem lookup_fromStr (k : PropKind) : lookupType .fromStr k.viewType =
    (if k = .text then .ok .plainStr else .ok .jsonLoadAny) := by
  cases k <;> decide +kernel
theorem lookup_add (k : PropKind) : lookupType (.update .add) k.viewType = .ok .addGeneral := by
  cases k <;> decide +kernel
theorem lookup_remove (k : PropKind) : lookupType (.update .remove) k.viewType =
    (if k.isList then .ok .removeAll else .ok .removeGeneral) := by
  cases k <;> decide +kernel

theorem default_kind {v : View} {k : PropKind} (h : HasKind v k) : defaultValue v =
    (if k = .index then .ok (.num (.int 0)) else if k.isList then .ok (.list []) else .error .valueError) := by
  rw [defaultValue, lookup_kind _ h, lookup_default]
  cases k <;> rfl

theorem equal_kind {v : View} {k : PropKind} (h : HasKind v k) (a b : Val) : checkEqual v a b =
    (if k = .tiles then tilesEqual a b else .ok (a.eq b)) := by
  rw [checkEqual, lookup_kind _ h, lookup_equal]
  cases k <;> rfl

theorem add_kind {v : View} {k : PropKind} (h : HasKind v k) (a b : Val) : callUpdate v .add a b = a.add b := by
  rw [callUpdate, lookup_kind _ h, lookup_add]
  rfl

theorem remove_kind {v : View} {k : PropKind} (h : HasKind v k) (a b : Val) : callUpdate v .remove a b =
    (if k.isList then removeAll a b else a.sub b) := by
  rw [callUpdate, lookup_kind _ h, lookup_remove]
  cases k <;> rfl

theorem toStr_kind (sh : Val → Str) {v : View} {k : PropKind} (h : HasKind v k) (x : Val) : toStr sh (some v) x =
    .ok (if k = .text then pyStrVal sh x else jsonDumps x) := by
  rw [toStr, lookup_kind _ h, lookup_toStr]
  cases k <;> rfl

theorem fromStr_kind {v : View} {k : PropKind} (h : HasKind v k) (x : Cell) : fromStr v x =
    (if k = .text then .ok (.str x.str) else jsonLoadAny x) := by
  rw [fromStr, lookup_kind _ h, lookup_fromStr]
  cases k <;> rfl

/-! ### records -/

theorem name_kind {v : View} (h : IsProperty v) : ∃ n, v.name = some n ∧ View.byName v.scope n = .ok v := by
  obtain ⟨k, s, n, hm, rfl⟩ := h
  exact ⟨n.toList, table_name _ hm, table_byName _ hm⟩

theorem tryInt_ok {s : Sub} (h : SubOk s) : s.tryInt = s := by
  cases s with
  | num n => rfl
  | text t =>
    rw [Sub.tryInt, if_neg]
    intro h2
    exact h ⟨h2.1, by simpa using h2.2⟩

/-- a value as a command has it after its record is read -/
def readBack (sh : Val → Str) (k : PropKind) (v : Val) : Val := if k = .text then .str (pyStrVal sh v) else v

theorem from_to (sh : Val → Str) {v : View} {k : PropKind} (h : HasKind v k) (x : Val) (hx : ValOk x) :
    fromStr v (.text (if k = .text then pyStrVal sh x else jsonDumps x)) = .ok (readBack sh k x) := by
  rw [fromStr_kind h, readBack]
  split
  · rfl
  · exact loads_dumps x hx

theorem toRecord_eq (sh : Val → Str) (c : Cmd) {k : PropKind} (h : HasKind c.prop k) (n : Str) (hn : c.prop.name = some n) :
    c.toRecord sh = .ok ⟨c.timestamp, c.event.map EventType.name, c.prop.scope.name, c.sub, n, c.update.name,
      .text (if k = .text then pyStrVal sh c.value else jsonDumps c.value),
      .text (if k = .text then pyStrVal sh c.state else jsonDumps c.state)⟩ := by
  rw [Cmd.toRecord, hn, toStr_kind sh h, toStr_kind sh h]
  rfl

theorem fromRecord_eq (sh : Val → Str) (c : Cmd) {k : PropKind} (h : HasKind c.prop k) (n : Str)
    (hb : View.byName c.prop.scope n = .ok c.prop) (hv : ValOk c.value) (hs : ValOk c.state) (hsub : SubOk c.sub) :
    Cmd.fromRecord ⟨c.timestamp, c.event.map EventType.name, c.prop.scope.name, c.sub, n, c.update.name,
      .text (if k = .text then pyStrVal sh c.value else jsonDumps c.value),
      .text (if k = .text then pyStrVal sh c.state else jsonDumps c.state)⟩ =
    .ok { c with value := readBack sh k c.value, state := readBack sh k c.state } := by
  rw [Cmd.fromRecord]
  simp only [scope_ofName, update_ofName, tryInt_ok hsub]
  show (View.byName c.prop.scope n >>= _) = _
  rw [hb]
  simp only [bind, Except.bind, from_to sh h _ hv, from_to sh h _ hs]
  cases he : c.event with
  | none => simp only [Option.map_none, pure, Except.pure]
  | some e => simp only [Option.map_some, event_ofName, pure, Except.pure]

theorem readBack_str (sh : Val → Str) (k : PropKind) (v : Val) :
    (if k = .text then pyStrVal sh (readBack sh k v) else jsonDumps (readBack sh k v)) =
      (if k = .text then pyStrVal sh v else jsonDumps v) := by
  unfold readBack
  split <;> rfl

/-! ### list removal -/

theorem eq_congr {a b x : Val} (h : a.eq b = true) : a.eq x = b.eq x := by
  simp only [Val.eq, decide_eq_true_eq] at h ⊢
  rw [h]

theorem eq_symm {a b : Val} : a.eq b = b.eq a := by
  simp only [Val.eq, eq_comm]

theorem eq_refl (a : Val) : a.eq a = true := by simp [Val.eq]

theorem occ_nil (x : Val) : occ x [] = 0 := rfl
theorem occ_cons (x y : Val) (l : List Val) : occ x (y :: l) = (if y.eq x then 1 else 0) + occ x l := by
  simp only [occ, List.filter_cons]
  split
  · simp; omega
  · simp
theorem occ_append (x : Val) (l r : List Val) : occ x (l ++ r) = occ x l + occ x r := by
  simp [occ]

theorem occ_congr {a b : Val} (h : a.eq b = true) (l : List Val) : occ a l = occ b l := by
  unfold occ
  congr 1
  apply List.filter_congr
  intro y _
  rw [eq_symm, eq_congr h, eq_symm]

theorem listRemove_ok (l : List Val) (v : Val) (h : 1 ≤ occ v l) :
    ∃ r, listRemove l v = .ok r ∧ r.Sublist l ∧ ∀ x, occ x r + (if v.eq x then 1 else 0) = occ x l := by
  induction l with
  | nil => simp [occ_nil] at h
  | cons y l ih =>
    rw [listRemove]
    by_cases hy : y.eq v = true
    · rw [if_pos hy]
      refine ⟨l, rfl, List.sublist_cons_self _ _, fun x => ?_⟩
      rw [occ_cons, eq_congr hy]
      omega
    · rw [if_neg hy]
      rw [occ_cons, if_neg hy] at h
      obtain ⟨r, e, hs, hc⟩ := ih (by omega)
      refine ⟨y :: r, by rw [e]; rfl, hs.cons_cons y, fun x => ?_⟩
      have := hc x
      rw [occ_cons, occ_cons]
      omega

theorem listRemove_err (l : List Val) (v : Val) (h : occ v l = 0) : listRemove l v = .error .valueError := by
  induction l with
  | nil => rfl
  | cons y l ih =>
    rw [occ_cons] at h
    rw [listRemove]
    by_cases hy : y.eq v = true
    · rw [if_pos hy] at h; omega
    · rw [if_neg hy, ih (by omega)]
      rfl

theorem removeLoop_ok (vs l : List Val) (h : ∀ x, occ x vs ≤ occ x l) :
    ∃ r, removeLoop l vs = .ok r ∧ r.Sublist l ∧ ∀ x, occ x r + occ x vs = occ x l := by
  induction vs generalizing l with
  | nil => exact ⟨l, rfl, List.Sublist.refl _, fun x => by rw [occ_nil]; omega⟩
  | cons v vs ih =>
    have h1 : 1 ≤ occ v l := by
      have := h v
      rw [occ_cons, if_pos (eq_refl v)] at this
      omega
    obtain ⟨r, e, hs, hc⟩ := listRemove_ok l v h1
    obtain ⟨r', e', hs', hc'⟩ := ih r (fun x => by
      have a := h x
      have b := hc x
      rw [occ_cons] at a
      omega)
    refine ⟨r', ?_, hs'.trans hs, fun x => ?_⟩
    · rw [removeLoop, e]
      exact e'
    · have a := hc x
      have b := hc' x
      rw [occ_cons]
      omega

theorem removeLoop_err (vs l : List Val) (x : Val) (h : occ x l < occ x vs) : removeLoop l vs = .error .valueError := by
  induction vs generalizing l with
  | nil => simp [occ_nil] at h
  | cons v vs ih =>
    rw [removeLoop]
    by_cases h1 : 1 ≤ occ v l
    · obtain ⟨r, e, hs, hc⟩ := listRemove_ok l v h1
      rw [e]
      refine ih r ?_
      have := hc x
      rw [occ_cons] at h
      omega
    · rw [listRemove_err l v (by omega)]
      rfl

/-! ### tile comparison -/

theorem counterOf_eq (v : Val) : counterOf v =
    (match tileItems v with | some l => .ok (Counter.ofIter l) | none => .error .typeError) := by
  cases v with
  | none => rfl
  | bool b => rfl
  | num n => rfl
  | str s =>
    have : (s.map (fun c => Val.str [c])).all Val.hashable = true := by simp [Val.hashable]
    simp only [counterOf, Val.iter, tileItems, bind, Except.bind, this, if_true]
    rfl
  | list l =>
    simp only [counterOf, Val.iter, tileItems, bind, Except.bind]
    split <;> rfl

theorem count_canon (x : Val) (l : List Val) : (l.map (Keyed.view (κ := Val))).count x.canon = occ x l := by
  rw [occ, ← List.countP_eq_length_filter, List.count, List.countP_map]
  apply List.countP_congr
  intro y _
  simp [Val.eq, Keyed.view]

theorem canon_rep {k : Val} {l : List Val} (h : k ∈ l.map (Keyed.view (κ := Val))) : ∃ x : Val, x.canon = k := by
  obtain ⟨x, _, e⟩ := List.mem_map.mp h
  exact ⟨x, e⟩

theorem dictEq_iff (a b : List Val) : dictEq (Counter.ofIter a) (Counter.ofIter b) = true ↔ ∀ x, occ x a = occ x b := by
  have wa := Counter.WF_ofIter (κ := Val) a
  have wb := Counter.WF_ofIter (κ := Val) b
  constructor
  · intro h x
    simp only [dictEq, Bool.and_eq_true, decide_eq_true_eq, List.all_eq_true] at h
    obtain ⟨hlen, hall⟩ := h
    have hsub : ∀ k ∈ Counter.keys (Counter.ofIter a), k ∈ Counter.keys (Counter.ofIter b) := by
      intro k hk
      obtain ⟨e, he, rfl⟩ := Counter.mem_keys.mp hk
      exact Counter.has_iff.mp (hall e he).1
    have hkl : (Counter.keys (Counter.ofIter b)).length ≤ (Counter.keys (Counter.ofIter a)).length := by
      simp only [Counter.keys, List.length_map]
      omega
    have hback : ∀ k ∈ Counter.keys (Counter.ofIter b), k ∈ Counter.keys (Counter.ofIter a) := by
      have := (List.Nodup.subperm wa hsub).perm_of_length_le hkl
      intro k hk
      exact this.mem_iff.mpr hk
    have key : Counter.get (Counter.ofIter a) x.canon = Counter.get (Counter.ofIter b) x.canon := by
      by_cases hx : x.canon ∈ Counter.keys (Counter.ofIter a)
      · obtain ⟨e, he, e2⟩ := Counter.mem_keys.mp hx
        have h1 := (hall e he).2
        have h2 := Counter.get_of_mem wa he
        have e3 : e.1.canon = x.canon := e2
        rw [← e3, h1]
        exact h2
      · rw [Counter.get_of_not_mem hx, Counter.get_of_not_mem (fun h => hx (hback _ h))]
    rw [Counter.get_ofIter, Counter.get_ofIter, count_canon, count_canon] at key
    omega
  · intro h
    have hget : ∀ x : Val, Counter.get (Counter.ofIter a) x.canon = Counter.get (Counter.ofIter b) x.canon := by
      intro x
      rw [Counter.get_ofIter, Counter.get_ofIter, count_canon, count_canon, h x]
    have hmem : ∀ k, k ∈ Counter.keys (Counter.ofIter a) ↔ k ∈ Counter.keys (Counter.ofIter b) := by
      intro k
      have hmk : ∀ l : List Val, k ∈ Counter.keys (Counter.ofIter l) ↔ k ∈ l.map (Keyed.view (κ := Val)) := by
        intro l
        rw [Counter.mem_keys_ofIter, List.mem_map]
        constructor
        · rintro ⟨y, hy, e⟩; exact ⟨y, hy, e.symm⟩
        · rintro ⟨y, hy, e⟩; exact ⟨y, hy, e.symm⟩
      rw [hmk, hmk]
      constructor
      · intro hk
        obtain ⟨x, rfl⟩ := canon_rep hk
        rw [← List.count_pos_iff, count_canon, ← h x, ← count_canon]
        exact List.count_pos_iff.mpr hk
      · intro hk
        obtain ⟨x, rfl⟩ := canon_rep hk
        rw [← List.count_pos_iff, count_canon, h x, ← count_canon]
        exact List.count_pos_iff.mpr hk
    have hlen : (Counter.ofIter a : Counter Val).length = (Counter.ofIter b).length := by
      have hp : (Counter.keys (Counter.ofIter a)).Perm (Counter.keys (Counter.ofIter b)) :=
        (List.perm_ext_iff_of_nodup wa wb).mpr hmem
      have := hp.length_eq
      simpa [Counter.keys] using this
    simp only [dictEq, Bool.and_eq_true, decide_eq_true_eq, List.all_eq_true]
    refine ⟨hlen, fun e he => ⟨?_, ?_⟩⟩
    · rw [Counter.has_iff]
      exact (hmem _).mp (Counter.mem_keys.mpr ⟨e, he, rfl⟩)
    · rw [← hget e.1]
      exact Counter.get_of_mem wa he

theorem tilesEqual_eq (a b : Val) : tilesEqual a b =
    (match tileItems a, tileItems b with
     | some la, some lb => .ok (dictEq (Counter.ofIter la) (Counter.ofIter lb))
     | _, _ => .error .typeError) := by
  rw [tilesEqual, counterOf_eq, counterOf_eq]
  cases tileItems a <;> cases tileItems b <;> rfl

theorem checkEqual_same {v : View} {k : PropKind} (h : HasKind v k) (a b : Val) :
    (checkEqual v a b = .ok true ↔ Same k a b) ∧ (checkEqual v a b = .ok false ↔ Differ k a b) := by
  rw [equal_kind h, Same, Differ]
  by_cases hk : k = .tiles
  · simp only [hk, if_true, tilesEqual_eq]
    cases ha : tileItems a with
    | none => simp
    | some la =>
      cases hb : tileItems b with
      | none => simp
      | some lb =>
        simp only [Except.ok.injEq, Option.some.injEq]
        refine ⟨?_, ?_⟩
        · rw [dictEq_iff]
          constructor
          · intro h; exact ⟨la, lb, rfl, rfl, h⟩
          · rintro ⟨_, _, rfl, rfl, h⟩; exact h
        · rw [← Bool.not_eq_true, dictEq_iff]
          constructor
          · intro h
            exact ⟨la, lb, rfl, rfl, Classical.not_forall.mp h⟩
          · rintro ⟨_, _, rfl, rfl, x, h⟩ h2
            exact h (h2 x)
  · simp [hk]

theorem checkEqual_err {v : View} {k : PropKind} (h : HasKind v k) (a b : Val) (e : PyErr) (he : checkEqual v a b = .error e) :
    e = .typeError := by
  rw [equal_kind h] at he
  split at he
  · rw [tilesEqual_eq] at he
    split at he <;> simp_all
  · simp at he

end Verif.Proofs
