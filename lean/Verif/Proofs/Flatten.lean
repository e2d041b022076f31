import Verif.Spec.Flatten
import Verif.Proofs.Executor

namespace Verif.Proofs
open Verif.Py Verif.Model Verif.Spec

theorem lookup_mem_keys {β : Type} {l : List (Key × β)} {k : Key} {t : β} (h : l.lookup k = some t) : k ∈ l.map Prod.fst := by
  induction l with
  | nil => cases h
  | cons e l ih =>
    obtain ⟨a, b⟩ := e
    rw [lookup_cons_if] at h
    by_cases hk : k = a
    · subst hk; simp
    · rw [if_neg hk] at h
      simp [ih h]

theorem dicts_cons {k : Key} {t : Tree} {l : List (Key × Tree)} (h : Dicts (.node ((k, t) :: l))) :
    Dicts t ∧ Dicts (.node l) ∧ k ∉ l.map Prod.fst := by
  have h0 := h [] _ rfl
  simp only [List.map_cons, List.nodup_cons] at h0
  refine ⟨?_, ?_, h0.1⟩
  · intro p kids hp
    apply h (k :: p) kids
    rw [reads, lookup_cons_if, if_pos rfl]
    exact hp
  · intro p kids hp
    cases p with
    | nil =>
      rw [reads] at hp
      cases hp
      exact h0.2
    | cons a p =>
      apply h (a :: p) kids
      rw [reads] at hp ⊢
      have : a ≠ k := by
        rintro rfl
        cases hl : l.lookup a with
        | none => rw [hl] at hp; cases hp
        | some x => exact h0.1 (lookup_mem_keys hl)
      rw [lookup_cons_if, if_neg this]
      exact hp

mutual
theorem mem_flattenKids : ∀ (l : List (Key × Tree)), Dicts (.node l) → ∀ p v,
    (p, v) ∈ flattenKids l ↔ reads (.node l) p = some (.leaf v)
  | [], _, p, v => by
    cases p with
    | nil => simp [flattenKids, reads]
    | cons a p => simp [flattenKids, reads]
  | (k, t) :: l, h, p, v => by
    obtain ⟨h1, h2, h3⟩ := dicts_cons h
    rw [flattenKids, List.mem_append, mem_flattenTree k t h1, mem_flattenKids l h2]
    cases p with
    | nil => simp [reads]
    | cons a p =>
      simp only [reads, lookup_cons_if]
      by_cases ha : a = k
      · subst ha
        have : l.lookup a = none := by
          cases hl : l.lookup a with
          | none => rfl
          | some x => exact absurd (lookup_mem_keys hl) h3
        rw [this]
        simp
      · simp [ha]
theorem mem_flattenTree (k : Key) : ∀ (t : Tree), Dicts t → ∀ p v,
    (p, v) ∈ flattenTree k t ↔ ∃ q, p = k :: q ∧ reads t q = some (.leaf v)
  | .leaf x, _, p, v => by
    rw [flattenTree]
    constructor
    · intro h
      simp at h
      exact ⟨[], h.1, by rw [reads, h.2]⟩
    · rintro ⟨q, rfl, hq⟩
      cases q with
      | nil => rw [reads] at hq; cases hq; simp
      | cons a q => cases hq
  | .node kids, h, p, v => by
    rw [flattenTree, List.mem_map]
    constructor
    · rintro ⟨⟨q, x⟩, he, e⟩
      cases e
      exact ⟨q, rfl, (mem_flattenKids kids h q x).1 he⟩
    · rintro ⟨q, rfl, hq⟩
      exact ⟨(q, v), (mem_flattenKids kids h q v).2 hq, rfl⟩
end

mutual
theorem nodup_flattenKids : ∀ (l : List (Key × Tree)), Dicts (.node l) → ((flattenKids l).map Prod.fst).Nodup
  | [], _ => by simp [flattenKids]
  | (k, t) :: l, h => by
    obtain ⟨h1, h2, h3⟩ := dicts_cons h
    rw [flattenKids, List.map_append, List.nodup_append]
    refine ⟨nodup_flattenTree k t h1, nodup_flattenKids l h2, ?_⟩
    intro a ha b hb e
    subst e
    obtain ⟨⟨p, v⟩, hp, rfl⟩ := List.mem_map.1 ha
    obtain ⟨⟨p', v'⟩, hp', e⟩ := List.mem_map.1 hb
    simp only at e
    subst e
    obtain ⟨q, rfl, _⟩ := (mem_flattenTree k t h1 _ _).1 hp
    have := (mem_flattenKids l h2 _ _).1 hp'
    rw [reads] at this
    cases hl : l.lookup k with
    | none => rw [hl] at this; cases this
    | some x => exact h3 (lookup_mem_keys hl)
theorem nodup_flattenTree (k : Key) : ∀ (t : Tree), Dicts t → ((flattenTree k t).map Prod.fst).Nodup
  | .leaf x, _ => by simp [flattenTree]
  | .node kids, h => by
    rw [flattenTree, List.map_map]
    have := nodup_flattenKids kids h
    rw [show (Prod.fst ∘ fun e : List Key × Val => (k :: e.1, e.2)) = (fun p => k :: p) ∘ Prod.fst from rfl, ← List.map_map]
    exact List.pairwise_map.2 (this.imp (fun h e => h (List.cons.inj e).2))
end

/-! ### the text of every entry -/

theorem mapM_ok_iff {α β : Type} (f : α → Except PyErr β) (g : α → β) (l : List α) (h : ∀ a ∈ l, f a = .ok (g a)) :
    l.mapM f = .ok (l.map g) := by
  induction l with
  | nil => rfl
  | cons a l ih =>
    rw [List.mapM_cons, h a (by simp), ih (fun a ha => h a (by simp [ha]))]
    rfl

theorem flatten_texts (showVal : Val → Str) (d : TD) (text : List Key → Val → Str)
    (h : ∀ p v, (p, v) ∈ flattenKids d.kids → toStr showVal (lastProp p) v = .ok (text p v)) :
    d.flatten showVal = .ok ((flattenKids d.kids).map (fun e => (e.1, text e.1 e.2))) := by
  unfold TD.flatten
  apply mapM_ok_iff
  rintro ⟨p, v⟩ hp
  have := h p v hp
  unfold lastProp at this
  simp only
  cases hl : p.getLast? with
  | none => rw [hl] at this; simp only [this]; rfl
  | some k =>
    rw [hl] at this
    cases k <;> simp only [this] at this ⊢ <;> rfl

/-! ### drop -/

theorem lookup_filter_ne {β : Type} (l : List (Key × β)) (k a : Key) :
    (l.filter (fun e => decide (e.1 ≠ k))).lookup a = if a = k then none else l.lookup a := by
  induction l with
  | nil => simp
  | cons e l ih =>
    obtain ⟨x, b⟩ := e
    by_cases hx : x = k
    · subst hx
      rw [List.filter_cons_of_neg (by simp), ih, lookup_cons_if]
      by_cases ha : a = x
      · simp [ha]
      · simp [ha]
    · rw [List.filter_cons_of_pos (by simp [hx]), lookup_cons_if, lookup_cons_if, ih]
      by_cases ha : a = x
      · subst ha; simp [hx]
      · simp [ha]

theorem drop_reads (root d : TD) (hroot : root.parents = []) (ks : List Key) (h : goTo root ks = .ok d) (k : Key) :
    (d.has k = false → d.drop k = .error .keyError) ∧
    (d.has k = true → ∃ root', d.drop k = .ok root' ∧ root'.parents = [] ∧
      (∀ q, reads (.node root'.kids) (ks ++ k :: q) = none) ∧
      (∀ p, ¬ (ks ++ [k]) <+: p → ¬ p <+: ks → reads (.node root'.kids) p = reads (.node root.kids) p) ∧
      (∀ p, p <+: ks → ∃ x, reads (.node root'.kids) p = some (.node x))) := by
  refine ⟨fun hk => by rw [TD.drop, hk]; rfl, fun hk => ?_⟩
  refine ⟨_, by rw [TD.drop, if_pos hk], ?_⟩
  have hr := (goTo_rebuild root d ks h (d.kids.filter (fun e => decide (e.1 ≠ k))))
  rw [hr.1, hroot, TD.rebuild]
  have hr := hr.2
  refine ⟨rfl, ?_, ?_, ?_⟩
  · intro q
    rw [(reads_replaceAt root.kids ks d.kids _ hr _).1 (k :: q) rfl, reads, lookup_filter_ne, if_pos rfl]
    rfl
  · intro p h1 h2
    by_cases h3 : ks <+: p
    · obtain ⟨q, rfl⟩ := h3
      cases q with
      | nil => exact absurd (by rw [List.append_nil]; exact List.prefix_refl _) h2
      | cons a q =>
        have ha : a ≠ k := by
          intro e
          subst e
          exact h1 ⟨q, by simp⟩
        rw [(reads_replaceAt root.kids ks d.kids _ hr _).1 (a :: q) rfl, reads, lookup_filter_ne, if_neg ha, reads_append, hr]
        rfl
    · exact (reads_replaceAt root.kids ks d.kids _ hr p).2.1 h3 h2
  · intro p hp
    exact (reads_replaceAt root.kids ks d.kids _ hr p).2.2 hp

/-! ### executor states are proper dictionaries -/

theorem keys_putKey (l : List (Key × Tree)) (k : Key) (t : Tree) :
    (putKey l k t).map Prod.fst = if k ∈ l.map Prod.fst then l.map Prod.fst else l.map Prod.fst ++ [k] := by
  induction l with
  | nil => simp [putKey]
  | cons e l ih =>
    obtain ⟨a, b⟩ := e
    rw [putKey]
    by_cases h : a = k
    · subst h; simp
    · rw [if_neg h, List.map_cons, ih]
      have h' : k ≠ a := fun e => h e.symm
      by_cases hm : k ∈ l.map Prod.fst
      · simp [hm]
      · simp only [List.map_cons, List.mem_cons, h', hm, or_self, if_false, List.cons_append]

theorem nodup_putKey (l : List (Key × Tree)) (k : Key) (t : Tree) (h : (l.map Prod.fst).Nodup) :
    ((putKey l k t).map Prod.fst).Nodup := by
  rw [keys_putKey]
  split
  · exact h
  · rename_i hk
    rw [List.nodup_append]
    refine ⟨h, by simp, ?_⟩
    intro a ha b hb e
    simp at hb
    subst hb
    subst e
    exact hk ha

theorem dicts_lookup {l : List (Key × Tree)} (h : Dicts (.node l)) {k : Key} {t : Tree} (hl : l.lookup k = some t) : Dicts t := by
  intro p kids hp
  apply h (k :: p)
  rw [reads, hl]
  exact hp

theorem dicts_putKey {l : List (Key × Tree)} (h : Dicts (.node l)) (k : Key) {t : Tree} (ht : Dicts t) :
    Dicts (.node (putKey l k t)) := by
  intro p kids hp
  cases p with
  | nil =>
    rw [reads] at hp
    cases hp
    exact nodup_putKey l k t (h [] l rfl)
  | cons a p =>
    rw [reads, lookup_putKey] at hp
    by_cases ha : a = k
    · rw [if_pos ha] at hp
      exact ht p kids hp
    · rw [if_neg ha] at hp
      cases hl : l.lookup a with
      | none => rw [hl] at hp; cases hp
      | some x =>
        rw [hl] at hp
        exact dicts_lookup h hl p kids hp

theorem dicts_replaceAt (l : List (Key × Tree)) (ks : List Key) (new : List (Key × Tree)) (h : Dicts (.node l))
    (hn : Dicts (.node new)) : Dicts (.node (replaceAt l ks new)) := by
  induction ks generalizing l with
  | nil => exact hn
  | cons k ks ih =>
    rw [replaceAt]
    split
    · rename_i sub hl
      exact dicts_putKey h k (ih sub (dicts_lookup h hl))
    · exact h

theorem dicts_leaf (v : Val) : Dicts (.leaf v) := by
  intro p kids hp
  cases p with
  | nil => cases hp
  | cons a p => cases hp

theorem dicts_set (root d : TD) (ks : List Key) (hroot : root.parents = []) (h : goTo root ks = .ok d) (k : Key) (t : Tree)
    (hd : Dicts (.node root.kids)) (ht : Dicts t) : Dicts (.node (d.set k t).kids) := by
  rw [set_root root d ks hroot h]
  apply dicts_replaceAt _ _ _ hd
  apply dicts_putKey _ _ ht
  have := (goTo_rebuild root d ks h []).2
  intro p kids hp
  apply hd (ks ++ p)
  rw [reads_append, this]
  exact hp

/-- what all states of an executor have in common -/
structure Tidy (d : TD) : Prop where
  dicts : Dicts (.node d.kids)
  leaves : ∀ p v, reads (.node d.kids) p = some (.leaf v) → ∃ sub w, GoodKey sub w ∧ IsProperty w ∧ p = placeOf sub w

theorem leaf_set (root d : TD) (ks : List Key) (hroot : root.parents = []) (h : goTo root ks = .ok d) (k : Key) (v : Val)
    (p : List Key) (x : Val) (hp : reads (.node (d.set k (.leaf v)).kids) p = some (.leaf x)) :
    p = ks ++ [k] ∨ reads (.node root.kids) p = some (.leaf x) := by
  obtain ⟨_, h1, h2, h3⟩ := set_reads root d ks hroot h k (.leaf v)
  by_cases a : (ks ++ [k]) <+: p
  · obtain ⟨q, rfl⟩ := a
    have := h1 q
    rw [List.append_assoc] at hp
    rw [show [k] ++ q = k :: q from rfl, this] at hp
    cases q with
    | nil => left; simp
    | cons b q => cases hp
  · by_cases b : p <+: ks
    · obtain ⟨y, hy⟩ := h3 p b
      rw [hy] at hp
      cases hp
    · right
      rw [← h2 p a b]
      exact hp

theorem tidy_update {strict : Bool} {c : Cmd} {d d' : TD} (hd : Tidy d) (hroot : d.parents = []) (hc : Addressed c)
    (h : executeUpdate strict c d = .ok d') : Tidy d' := by
  unfold executeUpdate at h
  rw [stateValue_eq d c hc] at h
  simp only [bind_ok] at h
  obtain ⟨e, he, old, _, new, _, h⟩ := h
  have hres : d' = e.set (.prop c.prop) (.leaf new) := by
    split at h
    · simp only [bind_ok] at h
      obtain ⟨b, _, h⟩ := h
      split at h
      · cases h
      · cases h; rfl
    · cases h; rfl
  subst hres
  refine ⟨dicts_set d e _ hroot he _ _ hd.dicts (dicts_leaf new), ?_⟩
  intro p v hp
  rcases leaf_set d e _ hroot he _ new p v hp with rfl | hp
  · exact ⟨c.sub, c.prop, hc.2, hc.1, by rw [placeOf_eq]⟩
  · exact hd.leaves p v hp

theorem initial_leaves : (flattenKids initialTree.kids) = [] := by decide +kernel

theorem nodup_dicts_nil : Dicts (.node []) := by
  intro p kids hp
  cases p with
  | nil => cases hp; exact List.nodup_nil
  | cons a p => cases hp

theorem dicts_mk {k : Key} {t : Tree} {l : List (Key × Tree)} (h1 : Dicts t) (h2 : Dicts (.node l)) (h3 : k ∉ l.map Prod.fst) :
    Dicts (.node ((k, t) :: l)) := by
  intro p kids hp
  cases p with
  | nil =>
    cases hp
    simp only [List.map_cons, List.nodup_cons]
    exact ⟨h3, h2 [] l rfl⟩
  | cons a p =>
    rw [reads, lookup_cons_if] at hp
    by_cases ha : a = k
    · rw [if_pos ha] at hp; exact h1 p kids hp
    · rw [if_neg ha] at hp; exact h2 (a :: p) kids hp

theorem tidy_initial : Tidy initialTree := by
  have hd : Dicts (.node initialTree.kids) := by
    unfold initialTree
    simp only
    refine dicts_mk (dicts_mk nodup_dicts_nil nodup_dicts_nil (by decide +kernel)) ?_ (by decide +kernel)
    refine dicts_mk (dicts_mk nodup_dicts_nil nodup_dicts_nil (by decide +kernel)) ?_ (by decide +kernel)
    refine dicts_mk ?_ ?_ (by decide +kernel)
    · refine dicts_mk nodup_dicts_nil ?_ (by decide +kernel)
      refine dicts_mk nodup_dicts_nil ?_ (by decide +kernel)
      refine dicts_mk nodup_dicts_nil ?_ (by decide +kernel)
      exact dicts_mk nodup_dicts_nil nodup_dicts_nil (by decide +kernel)
    · exact dicts_mk (dicts_mk nodup_dicts_nil nodup_dicts_nil (by decide +kernel)) nodup_dicts_nil (by decide +kernel)
  refine ⟨hd, ?_⟩
  intro p v hp
  have := (mem_flattenKids _ hd p v).2 hp
  rw [initial_leaves] at this
  cases this

theorem agree_root_update {strict : Bool} {c : Cmd} {d d' : TD} {s : IState} (ha : Agree d s) (hc : Addressed c)
    (h : executeUpdate strict c d = .ok d') : ∃ v, newValue c (s.get (c.sub, c.prop)) = .ok v ∧ Agree d' (s.set (c.sub, c.prop) v) := by
  have hs := step_eq ha hc
  cases hn : newValue c (s.get (c.sub, c.prop)) with
  | error e => rw [hn] at hs; simp only at hs; rw [hs strict] at h; cases h
  | ok v =>
    rw [hn] at hs
    simp only at hs
    obtain ⟨d'', hd, hx⟩ := hs
    rw [hx strict] at h
    refine ⟨v, rfl, ?_⟩
    split at h
    · split at h
      · cases h
      · split at h
        · cases h
        · cases h; exact hd
    · cases h; exact hd

/-- the states yielded -/
theorem tidy_states (strict : Bool) (cs : List Cmd) (hcs : ∀ c ∈ cs, Addressed c) (d : TD) (s : IState) (ha : Agree d s)
    (ht : Tidy d) (k : Nat) (y : TD) (hy : (executeFrom strict d cs).1[k]? = some y) :
    Dicts (.node y.kids) ∧ ∀ p v, reads (.node y.kids) p = some (.leaf v) →
      p = stampPath ∨ ∃ sub w, GoodKey sub w ∧ IsProperty w ∧ p = placeOf sub w := by
  induction cs generalizing d s k with
  | nil => simp [executeFrom] at hy
  | cons c cs ih =>
    have hc := hcs c (by simp)
    rw [executeFrom] at hy
    cases hu : executeUpdate strict c d with
    | error e => rw [hu] at hy; simp at hy
    | ok d' =>
      rw [hu] at hy
      simp only at hy
      obtain ⟨v, _, ha'⟩ := agree_root_update ha hc hu
      have ht' := tidy_update ht ha.root hc hu
      cases hst : stamped d' c with
      | error e => rw [hst] at hy; simp at hy
      | ok y' =>
        rw [hst] at hy
        simp only at hy
        cases k with
        | succ k => exact ih (fun c h => hcs c (by simp [h])) d' _ ha' ht' k (by simpa using hy)
        | zero =>
          simp at hy
          subst hy
          rw [stamped_eq] at hst
          simp only [bind_ok] at hst
          obtain ⟨e, he, hst⟩ := hst
          cases hst
          refine ⟨dicts_set d' e _ ha'.root he _ _ ht'.dicts (dicts_leaf _), ?_⟩
          intro p v hp
          rcases leaf_set d' e _ ha'.root he _ _ p v hp with rfl | hp
          · exact .inl rfl
          · exact .inr (ht'.leaves p v hp)

/-- the interpreter only knows keys the commands address -/
theorem interpretAll_keys (cs : List Cmd) (hcs : ∀ c ∈ cs, Addressed c) (s s' : IState)
    (hs : ∀ k x, s.lookup k = some x → GoodKey k.1 k.2) (h : interpretAll s cs = .ok s') :
    ∀ k x, s'.lookup k = some x → GoodKey k.1 k.2 := by
  induction cs generalizing s with
  | nil => cases h; exact hs
  | cons c cs ih =>
    rw [interpretAll, interpret_eq] at h
    cases hn : newValue c (s.get (c.sub, c.prop)) with
    | error e => rw [hn] at h; cases h
    | ok v =>
      rw [hn] at h
      refine ih (fun c h => hcs c (by simp [h])) _ ?_ h
      intro k x hk
      rw [lookup_iset] at hk
      by_cases e : k = (c.sub, c.prop)
      · subst e; exact (hcs c (by simp)).2
      · rw [if_neg e] at hk; exact hs k x hk

theorem lastProp_place (sub : Sub) (v : View) : lastProp (placeOf sub v) = some v := by
  rw [placeOf_eq, lastProp, List.getLast?_concat]

end Verif.Proofs
