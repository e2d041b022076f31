import Mathlib.Data.List.Perm.Subperm
import Verif.Model.SetOrder
import Verif.Spec.SetOrder
import Verif.Proofs.TileSet

/-! Property C108: comparing collections of tiles. -/
namespace Verif.Props
open Verif.Py Verif.Model Verif.Spec Verif.Proofs

theorem itemEq_iff (a b : Tile × Int) : itemEq a b = true ↔ (a.1.view, a.2) = (b.1.view, b.2) := by
  simp [itemEq]

theorem itemLt_iff (a b : Tile × Int) : itemLt a b = true ↔ EntryBefore (a.1.view, a.2) (b.1.view, b.2) := by
  have hr : ∀ s t : Suit, s.ord < t.ord ↔ suitRank s < suitRank t := by
    intro s t; cases s <;> cases t <;> decide
  have hirr : ∀ s : Suit, ¬ suitRank s < suitRank s := fun s => by omega
  unfold itemLt EntryBefore Tile.lt
  by_cases h : a.1.view = b.1.view
  · rw [if_pos h, h]
    simp [hirr]
  · rw [if_neg h]
    simp only [decide_eq_true_eq, Kind.lt, hr]
    constructor
    · rintro (h1 | h1)
      · exact Or.inl h1
      · exact Or.inr ⟨h1.1, Or.inl h1.2⟩
    · rintro (h1 | ⟨h1, h2 | h2⟩)
      · exact Or.inl h1
      · exact Or.inr ⟨h1, h2⟩
      · exact absurd (Prod.ext h1 h2.1) h

theorem listEq_iff (c d : TileSet) : listEq itemEq c d = true ↔ entries c = entries d := by
  induction c generalizing d with
  | nil => cases d <;> simp [listEq, entries]
  | cons a c ih =>
    cases d with
    | nil => simp [listEq, entries]
    | cons b d =>
      simp only [listEq, Bool.and_eq_true, itemEq_iff, ih, entries, List.map_cons, List.cons.injEq]

theorem not_entryBefore_self (a : Kind × Int) : ¬ EntryBefore a a := by
  unfold EntryBefore; omega

theorem setBefore_cons (a b : Tile × Int) (c d : TileSet) :
    SetBefore (a :: c) (b :: d) ↔
      if (a.1.view, a.2) = (b.1.view, b.2) then SetBefore c d else EntryBefore (a.1.view, a.2) (b.1.view, b.2) := by
  constructor
  · rintro ⟨p, h⟩
    cases p with
    | nil =>
      rcases h with ⟨h, _⟩ | ⟨x, r, y, s, h1, h2, h3⟩
      · simp [entries] at h
      · simp only [entries, List.map_cons, List.nil_append, List.cons.injEq] at h1 h2
        rw [← h1.1, ← h2.1] at h3
        split
        · rename_i e
          rw [e] at h3
          exact absurd h3 (not_entryBefore_self _)
        · exact h3
    | cons q p =>
      rcases h with ⟨h, y, s, h2⟩ | ⟨x, r, y, s, h1, h2, h3⟩
      · simp only [entries, List.map_cons, List.cons_append, List.cons.injEq] at h h2
        rw [if_pos (h.1.trans h2.1.symm)]
        exact ⟨p, Or.inl ⟨h.2, y, s, h2.2⟩⟩
      · simp only [entries, List.map_cons, List.cons_append, List.cons.injEq] at h1 h2
        rw [if_pos (h1.1.trans h2.1.symm)]
        exact ⟨p, Or.inr ⟨x, r, y, s, h1.2, h2.2, h3⟩⟩
  · intro h
    split at h
    · rename_i e
      obtain ⟨p, h⟩ := h
      refine ⟨(a.1.view, a.2) :: p, ?_⟩
      rcases h with ⟨h, y, s, h2⟩ | ⟨x, r, y, s, h1, h2, h3⟩
      · left
        exact ⟨by simp only [entries, List.map_cons] at h ⊢; rw [h], y, s,
          by simp only [entries, List.map_cons, List.cons_append] at h2 ⊢; rw [h2, e]⟩
      · right
        exact ⟨x, r, y, s, by simp only [entries, List.map_cons, List.cons_append] at h1 ⊢; rw [h1],
          by simp only [entries, List.map_cons, List.cons_append] at h2 ⊢; rw [h2, e], h3⟩
    · exact ⟨[], Or.inr ⟨_, _, _, _, rfl, rfl, h⟩⟩

/-- **C108.** `c < d` says that `c` comes before `d` as words do in a dictionary, the letters being the entries in the order in
    which they are stored. -/
theorem C108_less (c d : TileSet) : TileSet.lt c d = true ↔ SetBefore c d := by
  induction c generalizing d with
  | nil =>
    cases d with
    | nil =>
      constructor
      · intro h; simp [TileSet.lt] at h
      · rintro ⟨p, ⟨h, b, s, h2⟩ | ⟨a, r, b, s, h1, _⟩⟩
        · simp [entries] at h2
        · simp [entries] at h1
    | cons b d =>
      constructor
      · intro _; exact ⟨[], Or.inl ⟨rfl, _, _, rfl⟩⟩
      · intro _; rfl
  | cons a c ih =>
    cases d with
    | nil =>
      constructor
      · intro h; simp [TileSet.lt] at h
      · rintro ⟨p, ⟨h, b, s, h2⟩ | ⟨a', r, b, s, h1, h2, _⟩⟩
        · simp [entries] at h2
        · simp [entries] at h2
    | cons b d =>
      rw [setBefore_cons]
      simp only [TileSet.lt]
      by_cases e : a.1.view = b.1.view ∧ a.2 = b.2
      · rw [if_pos e, if_pos (by rw [e.1, e.2]), ih]
      · rw [if_neg e, if_neg (by intro h; exact e (Prod.mk.inj h)), itemLt_iff]

/-- **C108.** It is a strict order in which two collections are only incomparable when they store the same entries in the same
    order. -/
theorem C108_order (c d e : TileSet) :
    TileSet.lt c c = false ∧ (TileSet.lt c d = true → TileSet.lt d e = true → TileSet.lt c e = true) ∧
    (TileSet.lt c d = true → TileSet.lt d c = false) ∧
    ((TileSet.lt c d = false ∧ TileSet.lt d c = false) ↔ entries c = entries d) := by
  have S := item_strictTotal.list
  have T : ∀ c : TileSet, ∀ x ∈ c, (fun _ : Tile × Int => True) x := fun _ _ _ => trivial
  simp only [TileSet.lt_eq]
  refine ⟨S.irrefl c c (T c) (T c) (S.refl c (T c)), S.lt_trans c d e (T c) (T d) (T e), S.asymm (T c) (T d), ?_⟩
  rw [← listEq_iff]
  constructor
  · rintro ⟨h1, h2⟩
    rcases S.tri c d (T c) (T d) with h | h | h
    · rw [h1] at h; simp at h
    · exact h
    · rw [h2] at h; simp at h
  · intro h
    exact ⟨S.irrefl c d (T c) (T d) h, S.irrefl d c (T d) (T c) (S.symm c d (T c) (T d) h)⟩

theorem entries_fst (c : TileSet) : (entries c).map Prod.fst = Counter.keys c := by
  simp [entries, Counter.keys, Keyed.view, List.map_map, Function.comp_def]

theorem entries_nodup {c : TileSet} (h : Counter.WF c) : (entries c).Nodup := by
  have h : (Counter.keys c).Nodup := h
  rw [← entries_fst] at h
  exact (List.pairwise_map.1 h).imp (fun hne e => hne (congrArg Prod.fst e))

/-- **C108.** `c == d` says that they hold the same tiles, in whatever order. -/
theorem C108_equal (c d : TileSet) (hc : Counter.WF c) (hd : Counter.WF d) : TileSet.eq c d = true ↔ SameEntries c d := by
  have hin : ∀ e ∈ c, (Counter.has d (Keyed.view e.1) = true ∧ Counter.get d (Keyed.view e.1) = e.2) ↔ (e.1.view, e.2) ∈ entries d := by
    intro e _
    rw [Counter.has_iff]
    constructor
    · rintro ⟨h1, h2⟩
      obtain ⟨f, hf, hk, hv⟩ := Counter.exists_of_mem_keys hd h1
      refine List.mem_map.2 ⟨f, hf, ?_⟩
      refine Prod.ext hk ?_
      show f.2 = e.2
      rw [← h2, ← hv]
    · intro h
      obtain ⟨f, hf, e'⟩ := List.mem_map.1 h
      obtain ⟨h1, h2⟩ := Prod.mk.inj e'
      have := Counter.get_of_mem hd hf
      refine ⟨Counter.mem_keys.2 ⟨f, hf, h1⟩, ?_⟩
      show Counter.get d e.1.view = e.2
      rw [← h1, ← h2]
      exact this
  unfold TileSet.eq
  simp only [Bool.and_eq_true, decide_eq_true_eq, List.all_eq_true]
  constructor
  · rintro ⟨hl, h⟩
    have hsub : entries c ⊆ entries d := by
      intro x hx
      obtain ⟨e, he, rfl⟩ := List.mem_map.1 hx
      exact (hin e he).1 (h e he)
    have hp := (List.subperm_of_subset (entries_nodup hc) hsub).perm_of_length_le (by simp [entries, hl])
    exact fun x => hp.mem_iff
  · intro h
    refine ⟨?_, fun e he => (hin e he).2 ((h _).1 (List.mem_map.2 ⟨e, he, rfl⟩))⟩
    have := ((List.perm_ext_iff_of_nodup (entries_nodup hc) (entries_nodup hd)).2 h).length_eq
    simpa [entries] using this

theorem sameEntries_reSort (c : TileSet) : SameEntries (reSort c) c := fun x => ((reSort_perm c).map _).mem_iff

theorem entries_sorted {c : TileSet} (h : Counter.WF c) : (entries (reSort c)).Pairwise (fun a b => Kind.lt a.1 b.1) := by
  have := reSort_sorted h
  unfold Sorted at this
  rw [← entries_fst, List.pairwise_map] at this
  exact this

theorem entries_reSort_eq {c d : TileSet} (hc : Counter.WF c) (hd : Counter.WF d) :
    entries (reSort c) = entries (reSort d) ↔ SameEntries c d := by
  constructor
  · intro h x
    rw [← sameEntries_reSort c x, h, sameEntries_reSort d x]
  · intro h
    have hp : (entries (reSort c)).Perm (entries (reSort d)) :=
      (List.perm_ext_iff_of_nodup (entries_nodup (WF_reSort hc)) (entries_nodup (WF_reSort hd))).2
        (fun x => by rw [sameEntries_reSort c x, sameEntries_reSort d x]; exact h x)
    refine List.Perm.eq_of_pairwise ?_ (entries_sorted hc) (entries_sorted hd) hp
    intro a b _ _ h1 h2
    exact absurd rfl (Kind.lt_ne (Kind.lt_trans h1 h2))

/-- **C108.** Once both are sorted (`re_sort`), exactly one of `c == d`, `c < d` and `d < c` holds, whatever the order in which
    the tiles were put in. -/
theorem C108_trichotomy (c d : TileSet) (hc : Counter.WF c) (hd : Counter.WF d) :
    (TileSet.eq c d = true ∧ TileSet.lt (reSort c) (reSort d) = false ∧ TileSet.lt (reSort d) (reSort c) = false) ∨
    (TileSet.eq c d = false ∧ TileSet.lt (reSort c) (reSort d) = true ∧ TileSet.lt (reSort d) (reSort c) = false) ∨
    (TileSet.eq c d = false ∧ TileSet.lt (reSort c) (reSort d) = false ∧ TileSet.lt (reSort d) (reSort c) = true) := by
  have he : TileSet.eq c d = true ↔ (TileSet.lt (reSort c) (reSort d) = false ∧ TileSet.lt (reSort d) (reSort c) = false) := by
    rw [C108_equal c d hc hd, ← entries_reSort_eq hc hd, (C108_order _ _ []).2.2.2]
  have ha := (C108_order (reSort c) (reSort d) []).2.2.1
  cases h1 : TileSet.eq c d <;> cases h2 : TileSet.lt (reSort c) (reSort d) <;>
    cases h3 : TileSet.lt (reSort d) (reSort c) <;> simp_all

/-- **C108**, why they must be sorted: two collections with the same tiles are `==` and yet one is `<` the other. -/
theorem C108_unsorted : ∃ c d : TileSet, Counter.WF c ∧ Counter.WF d ∧ TileSet.eq c d = true ∧ TileSet.lt c d = true :=
  ⟨[(⟨.m, 1, false⟩, 1), (⟨.m, 2, false⟩, 1)], [(⟨.m, 2, false⟩, 1), (⟨.m, 1, false⟩, 1)],
    by decide, by decide, by decide, by decide⟩

/-- **C108.** `c > d` is `d < c`; `c <= d` and `c >= d` are refused, even for a collection and itself. -/
theorem C108_operators (c d : TileSet) :
    (TileSet.gt c d = .ok true ∨ TileSet.gt c d = .ok false) ∧ (TileSet.gt c d = .ok true ↔ SetBefore d c) ∧
    TileSet.le c d = .error .typeError ∧ TileSet.ge c d = .error .typeError := by
  refine ⟨?_, ?_, rfl, rfl⟩
  · unfold TileSet.gt
    cases TileSet.lt d c <;> simp
  · rw [← C108_less]
    simp [TileSet.gt]

/-- **C108.** Sorting collections keeps all of them and leaves none behind one that it comes before. -/
theorem C108_sorted (l : List TileSet) :
    (sortSets l).Perm l ∧ (sortSets l).Pairwise (fun a b => ¬ SetBefore b a) := by
  refine ⟨pySorted_perm l, ?_⟩
  have S := item_strictTotal.list
  have h := pySorted_sorted S l (fun _ _ _ _ => trivial)
  have e : TileSet.lt = listLt itemEq itemLt := by
    funext a b; exact TileSet.lt_eq a b
  unfold sortSets
  rw [e]
  refine h.imp ?_
  intro a b hab hb
  rw [← C108_less, TileSet.lt_eq, hab] at hb
  simp at hb

/-- an instance: two hands put in in different orders, one with a red five; 2m 2m comes after 2m and before 3m -/
example : Counter.WF ([(⟨.p, 0, true⟩, 1), (⟨.m, 2, false⟩, 2)] : TileSet) ∧
    TileSet.eq [(⟨.p, 0, true⟩, 1), (⟨.m, 2, false⟩, 2)] [(⟨.m, 2, false⟩, 2), (⟨.p, 5, false⟩, 1)] = true ∧
    SetBefore [(⟨.m, 2, false⟩, 1), (⟨.z, 1, false⟩, 1)] [(⟨.m, 2, false⟩, 2)] ∧
    SetBefore [(⟨.m, 2, false⟩, 2)] [(⟨.m, 2, false⟩, 2), (⟨.m, 3, false⟩, 1)] ∧
    sortSets [[(⟨.z, 1, false⟩, 2)], [(⟨.m, 2, false⟩, 2)], [(⟨.m, 2, false⟩, 1), (⟨.z, 1, false⟩, 1)]] =
      [[(⟨.m, 2, false⟩, 1), (⟨.z, 1, false⟩, 1)], [(⟨.m, 2, false⟩, 2)], [(⟨.z, 1, false⟩, 2)]] := by
  refine ⟨by decide, by decide, (C108_less _ _).1 (by decide), (C108_less _ _).1 (by decide), by decide⟩

end Verif.Props
