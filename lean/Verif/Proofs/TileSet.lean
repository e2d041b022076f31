import Verif.Proofs.Win
import Verif.Proofs.Order
import Verif.Spec.Selection

namespace Verif.Proofs
open Verif.Py Verif.Model Verif.Spec

theorem WF_reSort {c : TileSet} (h : Counter.WF c) : Counter.WF (reSort c) :=
  (WF_perm (reSort_perm c)).2 h

theorem get_reSort {c : TileSet} (h : Counter.WF c) (k : Kind) :
    Counter.get (reSort c) k = Counter.get c k :=
  get_perm (reSort_perm c) (WF_reSort h) k

theorem get_add {c d : TileSet} (hc : Counter.WF c) (hd : Counter.WF d) (k : Kind) :
    Counter.get (TileSet.add c d) k = max 0 (Counter.get c k + Counter.get d k) := by
  unfold TileSet.add
  rw [get_reSort (Counter.WF_iadd hc d), Counter.get_iadd hc hd]

theorem get_sub {c d : TileSet} (hc : Counter.WF c) (hd : Counter.WF d) (k : Kind) :
    Counter.get (TileSet.sub c d) k = max 0 (Counter.get c k - Counter.get d k) :=
  Counter.get_isub hc hd k

theorem and_eq (c d : TileSet) : Counter.and c d =
    c.filterMap (fun e => ((fun (a : Tile) (n : Int) =>
      if 0 < (if n < Counter.get d (Keyed.view a) then n else Counter.get d (Keyed.view a)) then
        some (if n < Counter.get d (Keyed.view a) then n else Counter.get d (Keyed.view a)) else none)
        e.1 e.2).map (fun m => (e.1, m))) := by
  unfold Counter.and
  congr 1
  funext e
  simp only
  split <;> simp

theorem get_and {c d : TileSet} (hc : Counter.WF c) (k : Kind) :
    Counter.get (TileSet.and c d) k = max 0 (min (Counter.get c k) (Counter.get d k)) := by
  unfold TileSet.and
  rw [and_eq]
  rw [Counter.get_filterMap hc _ (fun v n =>
      if 0 < (if n < Counter.get d v then n else Counter.get d v) then
        some (if n < Counter.get d v then n else Counter.get d v) else none) (fun _ _ => rfl)]
  by_cases hm : k ∈ Counter.keys c
  · simp only [hm, if_true]
    generalize Counter.get c k = a
    generalize Counter.get d k = b
    by_cases h : a < b
    · simp only [h, if_true]; split <;> simp <;> omega
    · simp only [h, if_false]; split <;> simp <;> omega
  · simp only [hm, if_false, Counter.get_of_not_mem hm]; omega

theorem WF_and {c d : TileSet} (hc : Counter.WF c) : Counter.WF (TileSet.and c d) := by
  unfold TileSet.and Counter.WF
  rw [and_eq]
  exact hc.sublist (Counter.keys_filterMap_sublist c (fun (a : Tile) (n : Int) =>
      if 0 < (if n < Counter.get d (Keyed.view a) then n else Counter.get d (Keyed.view a)) then
        some (if n < Counter.get d (Keyed.view a) then n else Counter.get d (Keyed.view a)) else none))

theorem get_append {c d : TileSet} (k : Kind) :
    Counter.get (c ++ d) k = if k ∈ Counter.keys c then Counter.get c k else Counter.get d k := by
  induction c with
  | nil => simp
  | cons e c ih =>
    obtain ⟨a, n⟩ := e
    simp only [List.cons_append, Counter.get_cons, ih, Counter.keys_cons, List.mem_cons]
    by_cases h : Keyed.view a = k
    · simp [h]
    · have h' : ¬ k = Keyed.view a := fun h' => h h'.symm
      simp [h, h']

theorem orL_eq (c d : TileSet) :
    c.filterMap (fun e =>
      let m := if e.2 < Counter.get d (Keyed.view e.1) then Counter.get d (Keyed.view e.1) else e.2
      if 0 < m then some (e.1, m) else none) =
    c.filterMap (fun e => ((fun (a : Tile) (n : Int) =>
      if 0 < (if n < Counter.get d (Keyed.view a) then Counter.get d (Keyed.view a) else n) then
        some (if n < Counter.get d (Keyed.view a) then Counter.get d (Keyed.view a) else n) else none)
        e.1 e.2).map (fun m => (e.1, m))) := by
  congr 1
  funext e
  simp only
  split <;> simp

theorem get_or {c d : TileSet} (hc : Counter.WF c) (hd : Counter.WF d) (k : Kind) :
    Counter.get (TileSet.or c d) k = max 0 (max (Counter.get c k) (Counter.get d k)) := by
  unfold TileSet.or Counter.or
  rw [get_append, orL_eq]
  have hleft := Counter.get_filterMap hc (fun (a : Tile) (n : Int) =>
      if 0 < (if n < Counter.get d (Keyed.view a) then Counter.get d (Keyed.view a) else n) then
        some (if n < Counter.get d (Keyed.view a) then Counter.get d (Keyed.view a) else n) else none)
      (fun v n => if 0 < (if n < Counter.get d v then Counter.get d v else n) then
        some (if n < Counter.get d v then Counter.get d v else n) else none) (fun _ _ => rfl) k
  have hsub := Counter.keys_filterMap_sublist c (fun (a : Tile) (n : Int) =>
      if 0 < (if n < Counter.get d (Keyed.view a) then Counter.get d (Keyed.view a) else n) then
        some (if n < Counter.get d (Keyed.view a) then Counter.get d (Keyed.view a) else n) else none)
  generalize hL : c.filterMap (fun e => ((fun (a : Tile) (n : Int) =>
      if 0 < (if n < Counter.get d (Keyed.view a) then Counter.get d (Keyed.view a) else n) then
        some (if n < Counter.get d (Keyed.view a) then Counter.get d (Keyed.view a) else n) else none)
        e.1 e.2).map (fun m => (e.1, m))) = L at *
  have hright := Counter.get_filter hd (fun e => !(Counter.has c (Keyed.view e.1)) && decide (0 < e.2))
    (fun v n => !(Counter.has c v) && decide (0 < n)) (fun _ => rfl) k
  by_cases hm : k ∈ Counter.keys c
  · have hr0 : Counter.get (d.filter (fun e => !(Counter.has c (Keyed.view e.1)) && decide (0 < e.2))) k = 0 := by
      rw [hright, Counter.has_iff.2 hm]; simp
    simp only [hm, if_true] at hleft
    have : (if k ∈ Counter.keys L then Counter.get L k else
        Counter.get (d.filter (fun e => !(Counter.has c (Keyed.view e.1)) && decide (0 < e.2))) k) = Counter.get L k := by
      split
      · rfl
      · rename_i h; rw [hr0, Counter.get_of_not_mem h]
    rw [this, hleft]
    generalize Counter.get c k = a
    generalize Counter.get d k = b
    by_cases h : a < b
    · simp only [h, if_true]; split <;> simp <;> omega
    · simp only [h, if_false]; split <;> simp <;> omega
  · rw [if_neg (fun h => hm (hsub.subset h)), hright]
    have hh : Counter.has c k = false := by
      cases h : Counter.has c k with
      | false => rfl
      | true => exact absurd (Counter.has_iff.1 h) hm
    rw [Counter.get_of_not_mem hm, hh]
    by_cases hk : k ∈ Counter.keys d
    · simp [hk]; split <;> omega
    · simp [hk, Counter.get_of_not_mem hk]

theorem WF_or {c d : TileSet} (hc : Counter.WF c) (hd : Counter.WF d) : Counter.WF (TileSet.or c d) := by
  unfold TileSet.or Counter.or Counter.WF Counter.keys
  rw [orL_eq, List.map_append, List.nodup_append]
  have hsub := Counter.keys_filterMap_sublist c (fun (a : Tile) (n : Int) =>
      if 0 < (if n < Counter.get d (Keyed.view a) then Counter.get d (Keyed.view a) else n) then
        some (if n < Counter.get d (Keyed.view a) then Counter.get d (Keyed.view a) else n) else none)
  refine ⟨hc.sublist hsub, Counter.WF_filter hd _, ?_⟩
  intro a ha b hb hab
  subst hab
  have h1 := hsub.subset ha
  obtain ⟨e, he, rfl⟩ := List.mem_map.1 hb
  have h2 := (List.mem_filter.1 he).2
  rw [Counter.has_iff.2 h1] at h2
  simp at h2

/-! ### listing the tiles -/

theorem count_flatMap_replicate (c : TileSet) (hw : Counter.WF c) (k : Kind) :
    (((TileSet.tiles c).map Tile.view).count k : Int) = max 0 (Counter.get c k) := by
  unfold TileSet.tiles
  induction c with
  | nil => simp
  | cons e c ih =>
    obtain ⟨a, n⟩ := e
    rw [Counter.WF_cons] at hw
    have ih := ih hw.2
    simp only [List.flatMap_cons, List.map_append, List.map_replicate, List.count_append,
      List.count_replicate, Counter.get_cons]
    by_cases h : a.view = k
    · subst h
      have h0 : Counter.get c a.view = 0 := Counter.get_of_not_mem hw.1
      rw [h0] at ih
      have h1 : (List.map Tile.view (List.flatMap (fun e => List.replicate e.2.toNat e.1) c)).count a.view = 0 := by
        omega
      simp only [beq_self_eq_true, if_true, view_def, h1]
      omega
    · simp only [view_def, h, if_false, beq_iff_eq]
      omega

theorem length_tiles (c : TileSet) (h : ∀ e ∈ c, 0 ≤ e.2) :
    ((TileSet.tiles c).length : Int) = TileSet.len c := by
  unfold TileSet.tiles TileSet.len
  induction c with
  | nil => simp
  | cons e c ih =>
    have := ih (fun e he => h e (by simp [he]))
    have he := h e (by simp)
    simp only [List.flatMap_cons, List.length_append, List.length_replicate, Counter.total_cons]
    omega

/-! ### `HandOK` is kept -/

theorem keys_ofIter_real {l : List Tile} (h : ∀ t ∈ l, RealTile t) : AllReal (Counter.ofIter l) := by
  unfold Counter.ofIter
  have : ∀ (c : TileSet), AllReal c →
      AllReal (l.foldl (fun c a => c.set a (c.get (Keyed.view a) + 1)) c) := by
    induction l with
    | nil => intro c hc; exact hc
    | cons a l ih =>
      intro c hc
      exact ih (fun t ht => h t (by simp [ht])) _ (hc.set (h a (by simp)))
  exact this [] (by simp [AllReal])

theorem HandOK_of {c : TileSet} (hw : Counter.WF c) (hr : AllReal c) (hn : ∀ k, 0 ≤ Counter.get c k) :
    HandOK c :=
  ⟨hw, hr, fun e he => by rw [← Counter.get_of_mem hw he]; exact hn _⟩

theorem HandOK_ofIter {l : List Tile} (h : ∀ t ∈ l, RealTile t) : HandOK (Counter.ofIter l) :=
  HandOK_of (Counter.WF_ofIter l) (keys_ofIter_real h) (fun k => by
    rw [Counter.get_ofIter]; omega)

theorem HandOK_add {c d : TileSet} (hc : HandOK c) (hd : HandOK d) : HandOK (TileSet.add c d) := by
  refine HandOK_of (WF_reSort (Counter.WF_iadd hc.1 d)) ?_ ?_
  · intro e he
    have he := (reSort_perm _).mem_iff.1 he
    have he := (List.mem_filter.1 he).1
    exact AllReal.foldl_set (fun c e => c.get (Keyed.view e.1) + e.2) hc.2.1 hd.2.1 e he
  · intro k; rw [get_add hc.1 hd.1]; omega

theorem HandOK_sub {c d : TileSet} (hc : HandOK c) (hd : HandOK d) : HandOK (TileSet.sub c d) := by
  refine HandOK_of (Counter.WF_isub hc.1 d) ?_ ?_
  · intro e he
    have he := (List.mem_filter.1 he).1
    exact AllReal.foldl_set (fun c e => c.get (Keyed.view e.1) - e.2) hc.2.1 hd.2.1 e he
  · intro k; rw [get_sub hc.1 hd.1]; omega

/-! ### selections -/

theorem areGroups_map (D : List Group) : AreGroups (D.map unitOf) D := by
  induction D with
  | nil => trivial
  | cons g D ih => exact ⟨fun k => get_unitOf g k, ih⟩

theorem Group.count_inj {g g' : Group} (h : ∀ k, g.count k = g'.count k) : g = g' := by
  have hf : g.first = g'.first := by
    rcases Kind.lt_tri g.first g'.first with h1 | h1 | h1
    · have := Group.count_first_pos g
      rw [h] at this
      exact absurd h1 (Group.first_le_of_count (by omega))
    · exact h1
    · have := Group.count_first_pos g'
      rw [← h] at this
      exact absurd h1 (Group.first_le_of_count (by omega))
  have h1 := h g.first
  cases g <;> cases g' <;> simp [Group.first] at hf <;> subst hf <;> simp [Group.count, Group.first] at h1 ⊢
  all_goals (split at h1 <;> omega)

theorem areGroups_unitOf {D D' : List Group} (h : AreGroups (D.map unitOf) D') : D = D' := by
  induction D generalizing D' with
  | nil => cases D' <;> simp_all [AreGroups]
  | cons g D ih =>
    cases D' with
    | nil => simp [AreGroups] at h
    | cons g' D' =>
      obtain ⟨h1, h2⟩ := h
      rw [ih h2]
      have : g = g' := Group.count_inj (fun k => by rw [← get_unitOf]; exact h1 k)
      rw [this]

/-! ### order of unit tile sets -/

def itemEq (a b : Tile × Int) : Bool := decide (a.1.view = b.1.view ∧ a.2 = b.2)

theorem item_strictTotal : StrictTotal (fun _ : Tile × Int => True) itemEq itemLt := by
  refine ⟨?_, ?_, ?_, ?_, ?_, ?_⟩
  · intro a _; simp [itemEq]
  · intro a b _ _ h; simp [itemEq] at h ⊢; exact ⟨h.1.symm, h.2.symm⟩
  · intro a b c _ _ _ h1 h2; simp [itemEq] at *; exact ⟨h1.1.trans h2.1, h1.2.trans h2.2⟩
  · intro a b _ _ h; simp [itemEq] at h; simp [itemLt, h]
  · intro a b c _ _ _ h1 h2
    unfold itemLt Tile.lt at *
    by_cases hab : a.1.view = b.1.view
    · rw [if_pos hab] at h1
      by_cases hbc : b.1.view = c.1.view
      · rw [if_pos hbc] at h2
        rw [if_pos (hab.trans hbc)]
        simp at *; omega
      · rw [if_neg hbc] at h2
        rw [if_neg (by rw [hab]; exact hbc), hab]; exact h2
    · rw [if_neg hab] at h1
      simp only [decide_eq_true_eq] at h1
      by_cases hbc : b.1.view = c.1.view
      · rw [if_neg (by rw [← hbc]; exact hab), ← hbc]; simpa using h1
      · rw [if_neg hbc] at h2
        simp only [decide_eq_true_eq] at h2
        have := Kind.lt_trans h1 h2
        rw [if_neg (Kind.lt_ne this)]; simpa using this
  · intro a b _ _
    unfold itemLt itemEq Tile.lt
    by_cases hab : a.1.view = b.1.view
    · rw [if_pos hab, if_pos hab.symm]
      simp only [decide_eq_true_eq, hab, true_and]
      omega
    · rw [if_neg hab, if_neg (fun h => hab h.symm)]
      simp only [decide_eq_true_eq, hab, false_and, or_false]
      rcases Kind.lt_tri a.1.view b.1.view with h | h | h
      · exact Or.inl h
      · exact absurd h hab
      · exact Or.inr (Or.inr h)

theorem TileSet.lt_eq (c d : TileSet) : TileSet.lt c d = listLt itemEq itemLt c d := by
  induction c generalizing d with
  | nil => cases d <;> rfl
  | cons a c ih =>
    cases d with
    | nil => rfl
    | cons b d =>
      simp only [TileSet.lt, listLt, itemEq, decide_eq_true_eq, ih]

/-- tile sets built for a group -/
def IsUnit (c : TileSet) : Prop := ∃ g, c = unitOf g

theorem listEq_item_unit {g g' : Group} (h : listEq itemEq (unitOf g) (unitOf g') = true) : g = g' := by
  cases g <;> cases g' <;> simp [unitOf, listEq, itemEq] at h
  · exact congrArg _ h
  · exact congrArg _ h.1
  · exact congrArg _ h

theorem TileSet.eq_unit {g g' : Group} : TileSet.eq (unitOf g) (unitOf g') = true ↔ g = g' := by
  constructor
  · intro h
    unfold TileSet.eq at h
    simp only [Bool.and_eq_true, decide_eq_true_eq, List.all_eq_true, Counter.has_iff] at h
    obtain ⟨hl, h⟩ := h
    have hk : ∀ k, g.count k ≠ 0 → g'.count k = g.count k := by
      intro k hk
      obtain ⟨e, he, rfl, hv⟩ := Counter.exists_of_mem_keys (WF_unitOf g) ((keys_unitOf g k).2 hk)
      have := (h e he).2
      rw [get_unitOf] at this
      rw [get_unitOf] at hv
      rw [this, hv]
    have hf := hk _ (by have := Group.count_first_pos g; omega : g.count g.first ≠ 0)
    cases g with
    | pair k =>
      simp [Group.first, Group.count] at hf
      cases g' with
      | pair k' => simp [Group.count] at hf; rw [hf]
      | run k' => simp [unitOf] at hl
      | trip k' => simp [Group.count] at hf; split at hf <;> omega
    | trip k =>
      simp [Group.first, Group.count] at hf
      cases g' with
      | pair k' => simp [Group.count] at hf; split at hf <;> omega
      | run k' => simp [unitOf] at hl
      | trip k' => simp [Group.count] at hf; rw [hf]
    | run k =>
      cases g' with
      | pair k' => simp [unitOf] at hl
      | trip k' => simp [unitOf] at hl
      | run k' =>
        obtain ⟨c, n⟩ := k
        obtain ⟨c', n'⟩ := k'
        have h2 := hk (c, n + 2) (by simp [Group.count]; omega)
        simp only [Group.count, Group.first] at hf h2
        have hf : c = c' ∧ n' ≤ n ∧ n ≤ n' + 2 := by
          by_cases h : c = c' ∧ n' ≤ n ∧ n ≤ n' + 2
          · exact h
          · simp [h] at hf; omega
        have h2 : c = c' ∧ n' ≤ n + 2 ∧ n + 2 ≤ n' + 2 := by
          by_cases h : c = c' ∧ n' ≤ n + 2 ∧ n + 2 ≤ n' + 2
          · exact h
          · simp only [h] at h2; simp at h2; omega
        congr 1
        refine Prod.ext hf.1 ?_
        simp; omega
  · rintro rfl
    unfold TileSet.eq
    simp only [Bool.and_eq_true, decide_eq_true_eq, List.all_eq_true, Counter.has_iff, true_and]
    intro e he
    exact ⟨Counter.mem_keys.2 ⟨e, he, rfl⟩, Counter.get_of_mem (WF_unitOf g) he⟩

theorem unit_strictTotal : StrictTotal IsUnit TileSet.eq TileSet.lt := by
  have S := item_strictTotal.list
  refine ⟨?_, ?_, ?_, ?_, ?_, ?_⟩
  · rintro _ ⟨g, rfl⟩; exact TileSet.eq_unit.2 rfl
  · rintro _ _ ⟨g, rfl⟩ ⟨g', rfl⟩ h; exact TileSet.eq_unit.2 (TileSet.eq_unit.1 h).symm
  · rintro _ _ _ ⟨g, rfl⟩ ⟨g', rfl⟩ ⟨g'', rfl⟩ h1 h2
    exact TileSet.eq_unit.2 ((TileSet.eq_unit.1 h1).trans (TileSet.eq_unit.1 h2))
  · rintro _ _ ⟨g, rfl⟩ ⟨g', rfl⟩ h
    rw [TileSet.eq_unit.1 h, TileSet.lt_eq]
    exact S.irrefl _ _ (fun _ _ => trivial) (fun _ _ => trivial) (S.refl _ (fun _ _ => trivial))
  · intro a b c _ _ _ h1 h2
    rw [TileSet.lt_eq] at *
    exact S.lt_trans a b c (fun _ _ => trivial) (fun _ _ => trivial) (fun _ _ => trivial) h1 h2
  · rintro _ _ ⟨g, rfl⟩ ⟨g', rfl⟩
    rw [TileSet.lt_eq, TileSet.lt_eq]
    rcases S.tri (unitOf g) (unitOf g') (fun _ _ => trivial) (fun _ _ => trivial) with h | h | h
    · exact Or.inl h
    · exact Or.inr (Or.inl (TileSet.eq_unit.2 (listEq_item_unit h)))
    · exact Or.inr (Or.inr h)

theorem listEq_eq_of {α : Type} {P : α → Prop} {eq : α → α → Bool}
    (h : ∀ a b, P a → P b → eq a b = true → a = b) {l m : List α} (hl : ∀ x ∈ l, P x)
    (hm : ∀ x ∈ m, P x) (he : listEq eq l m = true) : l = m := by
  induction l generalizing m with
  | nil => cases m <;> simp_all [listEq]
  | cons a l ih =>
    cases m with
    | nil => simp [listEq] at he
    | cons b m =>
      simp only [listEq, Bool.and_eq_true] at he
      rw [h a b (hl a (by simp)) (hm b (by simp)) he.1,
        ih (fun x hx => hl x (by simp [hx])) (fun x hx => hm x (by simp [hx])) he.2]

theorem unit_eq_imp : ∀ a b, IsUnit a → IsUnit b → TileSet.eq a b = true → a = b := by
  rintro _ _ ⟨g, rfl⟩ ⟨g', rfl⟩ h
  rw [TileSet.eq_unit.1 h]

/-- the selections handed to `distinct` -/
theorem sorted_selection {w : Pattern} {hand : TileSet} (hh : HandOK hand) {s : Selection}
    (hs : s ∈ (winSelections w hand).map (fun sel => pySorted TileSet.lt sel)) :
    ∃ D, Legal w D ∧ s = pySorted TileSet.lt (D.map unitOf) ∧ ∀ k, need D k ≤ Counter.get hand k := by
  obtain ⟨sel, hsel, rfl⟩ := List.mem_map.1 hs
  obtain ⟨D, h1, h2, h3⟩ := winSelections_sound hh hsel
  exact ⟨D, h1, by rw [h2], h3⟩

theorem sorted_isUnit (D : List Group) : ∀ x ∈ pySorted TileSet.lt (D.map unitOf), IsUnit x := by
  intro x hx
  have := (pySorted_perm _).mem_iff.1 hx
  obtain ⟨g, _, rfl⟩ := List.mem_map.1 this
  exact ⟨g, rfl⟩

theorem perm_map_inv {α β : Type} {f : α → β} {l : List α} {m : List β} (h : (l.map f).Perm m) :
    ∃ l' : List α, l'.Perm l ∧ m = l'.map f := by
  generalize hm : l.map f = l0 at h
  induction h generalizing l with
  | nil => exact ⟨l, List.Perm.refl _, by simp_all⟩
  | cons x _ ih =>
    cases l with
    | nil => simp at hm
    | cons a l =>
      simp at hm
      obtain ⟨l', h1, h2⟩ := ih hm.2
      exact ⟨a :: l', h1.cons a, by simp [hm.1, h2]⟩
  | swap x y t =>
    cases l with
    | nil => simp at hm
    | cons a l =>
      cases l with
      | nil => simp at hm
      | cons b l =>
        simp at hm
        exact ⟨b :: a :: l, List.Perm.swap _ _ _, by simp [hm]⟩
  | trans _ _ ih1 ih2 =>
    obtain ⟨l1, h1, h2⟩ := ih1 hm
    obtain ⟨l2, h3, h4⟩ := ih2 h2.symm
    exact ⟨l2, h3.trans h1, h4⟩

theorem realises_sorted {D D' : List Group} :
    Realises (pySorted TileSet.lt (D.map unitOf)) D' ↔ D.Perm D' := by
  have hp : (pySorted TileSet.lt (D.map unitOf)).Perm (D.map unitOf) := pySorted_perm _
  obtain ⟨D1, h1, h2⟩ := perm_map_inv hp.symm
  constructor
  · rintro ⟨D2, h3, h4⟩
    rw [h2] at h4
    have := areGroups_unitOf h4
    subst this
    exact h1.symm.trans h3
  · intro h
    exact ⟨D1, h1.trans h, by rw [h2]; exact areGroups_map D1⟩

theorem sorted_perm_eq {D D' : List Group} (h : D.Perm D') :
    pySorted TileSet.lt (D.map unitOf) = pySorted TileSet.lt (D'.map unitOf) := by
  have hu : ∀ D : List Group, ∀ x ∈ D.map unitOf, IsUnit x := by
    intro D x hx
    obtain ⟨g, _, rfl⟩ := List.mem_map.1 hx
    exact ⟨g, rfl⟩
  refine eq_of_perm_sorted unit_strictTotal unit_eq_imp (sorted_isUnit D) ?_
    (pySorted_sorted unit_strictTotal _ (hu D)) (pySorted_sorted unit_strictTotal _ (hu D'))
  exact (pySorted_perm _).trans ((h.map unitOf).trans (pySorted_perm _).symm)

theorem uniqueWinSelections_spec {w : Pattern} {hand : TileSet} (hh : HandOK hand) :
    (∀ sel ∈ uniqueWinSelections w hand,
      ∃ D, Legal w D ∧ Realises sel D ∧ ∀ k, need D k ≤ Counter.get hand k) ∧
    (∀ D, Legal w D → (∀ k, need D k ≤ Counter.get hand k) →
      ∃ pre sel post, uniqueWinSelections w hand = pre ++ sel :: post ∧ Realises sel D ∧
        ∀ s ∈ pre ++ post, ¬ Realises s D) := by
  have S := unit_strictTotal.list
  have hin : ∀ y ∈ (winSelections w hand).map (fun sel => pySorted TileSet.lt sel),
      ∀ x ∈ y, IsUnit x := by
    intro y hy
    obtain ⟨D, _, rfl, _⟩ := sorted_selection hh hy
    exact sorted_isUnit D
  have hmem := distinct_mem_iff_aux S _ hin
  have hpw := distinct_pairwise S _ hin
  change (∀ sel ∈ uniqueWinSelections w hand, _) ∧ _ at hmem
  change (uniqueWinSelections w hand).Pairwise _ at hpw
  refine ⟨?_, ?_⟩
  · intro sel hsel
    obtain ⟨D, h1, rfl, h3⟩ := sorted_selection hh (hmem.1 sel hsel)
    exact ⟨D, h1, realises_sorted.2 (List.Perm.refl _), h3⟩
  · intro D hD hfit
    obtain ⟨sel0, hsel0, hp⟩ := winSelections_complete hh hD hfit
    obtain ⟨D0, hD0, rfl, _⟩ := winSelections_sound hh hsel0
    have hx : pySorted TileSet.lt (D0.map unitOf) ∈
        (winSelections w hand).map (fun sel => pySorted TileSet.lt sel) :=
      List.mem_map.2 ⟨_, hsel0, rfl⟩
    obtain ⟨y, hy, hyx⟩ := hmem.2.1 _ hx
    have hyu := hin _ (hmem.1 y hy)
    have hyeq := listEq_eq_of unit_eq_imp hyu (sorted_isUnit D0) hyx
    have hDD : D0.Perm D := by
      obtain ⟨D1, h1, h2⟩ := perm_map_inv hp.symm
      have : D0 = D1 := areGroups_unitOf (by rw [h2]; exact areGroups_map D1)
      rw [this]; exact h1
    obtain ⟨pre, post, hsplit⟩ := List.append_of_mem hy
    refine ⟨pre, y, post, hsplit, ?_, ?_⟩
    · rw [hyeq]; exact realises_sorted.2 hDD
    · intro s hs hr
      have hsm : s ∈ uniqueWinSelections w hand := by
        rw [show uniqueWinSelections w hand = _ from hsplit]
        rcases List.mem_append.1 hs with h | h <;> simp [h]
      obtain ⟨D2, _, hs2, _⟩ := sorted_selection hh (hmem.1 s hsm)
      rw [hs2, realises_sorted] at hr
      have hsy : s = y := by
        rw [hs2, hyeq]; exact sorted_perm_eq (hr.trans hDD.symm)
      rw [show uniqueWinSelections w hand = _ from hsplit, List.pairwise_append,
        List.pairwise_cons] at hpw
      have hself : listEq TileSet.eq y y = true := S.refl y hyu
      rcases List.mem_append.1 hs with h | h
      · have := hpw.2.2 s h y (by simp)
        rw [hsy, hself] at this; simp at this
      · have := hpw.2.1.1 s h
        rw [hsy, hself] at this; simp at this

end Verif.Proofs
