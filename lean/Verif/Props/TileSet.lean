import Verif.Proofs.TileSet

/-! Property C05: `TileSet` operations are exact multiset operations. -/
namespace Verif.Props
open Verif.Py Verif.Model Verif.Spec Verif.Proofs

/-- **C05.** For any two tile sets (any integer counts, red or plain keys), reading any kind `k`:
    `a + b` holds the positive part of the sum, `a - b` the truncated difference, `a & b` the minimum
    and `a | b` the maximum (never below 0), and the results are again dictionaries without
    duplicate keys. -/
theorem C05_operations (a b : TileSet) (ha : Counter.WF a) (hb : Counter.WF b) :
    (∀ k, content (TileSet.add a b) k = max 0 (content a k + content b k)) ∧
    (∀ k, content (TileSet.sub a b) k = max 0 (content a k - content b k)) ∧
    (∀ k, content (TileSet.and a b) k = max 0 (min (content a k) (content b k))) ∧
    (∀ k, content (TileSet.or a b) k = max 0 (max (content a k) (content b k))) ∧
    Counter.WF (TileSet.add a b) ∧ Counter.WF (TileSet.sub a b) ∧
    Counter.WF (TileSet.and a b) ∧ Counter.WF (TileSet.or a b) :=
  ⟨fun k => get_add ha hb k, fun k => get_sub ha hb k, fun k => get_and ha k,
   fun k => get_or ha hb k, WF_reSort (Counter.WF_iadd ha b), Counter.WF_isub ha b,
   WF_and ha, WF_or ha hb⟩

/-- **C05.** `TileSet(tiles)` counts the tiles by kind. -/
theorem C05_construct (l : List Tile) :
    Counter.WF (Counter.ofIter l : TileSet) ∧
    ∀ k, content (Counter.ofIter l) k = ((l.filter (fun t => decide (t.view = k))).length : Int) := by
  refine ⟨Counter.WF_ofIter l, fun k => ?_⟩
  unfold content
  rw [Counter.get_ofIter]
  congr 1
  induction l with
  | nil => rfl
  | cons t l ih =>
    simp only [List.map_cons, List.count_cons, List.filter_cons]
    by_cases h : t.view = k
    · have : Keyed.view t = k := h
      simp [h, this, ih]
    · have : ¬ Keyed.view t = k := h
      simp [h, this, ih]

/-- **C05.** `a.contains(b)` is True exactly when every kind stored in `b` occurs in `a` at least as
    often; for non-negative `a` this is the pointwise comparison whenever `b` stores a positive count. -/
theorem C05_contains (a b : TileSet) (hb : Counter.WF b) :
    TileSet.contains a b = true ↔ ∀ k ∈ Counter.keys b, content b k ≤ content a k :=
  contains_iff hb

theorem C05_contains_hand (a b : TileSet) (ha : HandOK a) (hb : HandOK b) :
    TileSet.contains a b = true ↔ ∀ k, content b k ≤ content a k := by
  rw [contains_iff hb.1]
  constructor
  · intro h k
    by_cases hk : k ∈ Counter.keys b
    · exact h k hk
    · unfold content; rw [Counter.get_of_not_mem hk]; exact ha.get_nonneg k
  · intro h k _; exact h k

/-- **C05.** `a.exclude(b)` is `None` exactly when `b` is not contained, else `a - b`; for hands
    nothing is truncated. -/
theorem C05_exclude (a b : TileSet) (ha : HandOK a) (hb : HandOK b) :
    ((¬ ∀ k, content b k ≤ content a k) → TileSet.exclude a b = none) ∧
    ((∀ k, content b k ≤ content a k) →
      ∃ c, TileSet.exclude a b = some c ∧ ∀ k, content c k = content a k - content b k) := by
  have h := C05_contains_hand a b ha hb
  constructor
  · intro hn
    unfold TileSet.exclude
    rw [if_neg (fun h' => hn (h.1 h'))]
  · intro hy
    refine ⟨TileSet.sub a b, ?_, ?_⟩
    · unfold TileSet.exclude; rw [if_pos (h.2 hy)]
    · intro k
      have := get_sub ha.1 hb.1 k
      have := hy k
      unfold content at *
      omega

/-- **C05.** `len` is the number of tiles and `tiles()` lists every kind as often as it occurs. -/
theorem C05_len_tiles (a : TileSet) (ha : HandOK a) :
    TileSet.len a = sumK (content a) ∧ ((TileSet.tiles a).length : Int) = TileSet.len a ∧
    ∀ k, (((TileSet.tiles a).filter (fun t => decide (t.view = k))).length : Int) = content a k := by
  refine ⟨total_eq_sumK ha.1 ha.2.1, length_tiles a ha.2.2, fun k => ?_⟩
  have h1 := count_flatMap_replicate a ha.1 k
  have h2 := ha.get_nonneg k
  have h3 : ∀ l : List Tile, (l.filter (fun t => decide (t.view = k))).length = (l.map Tile.view).count k := by
    intro l
    induction l with
    | nil => rfl
    | cons t l ih =>
      simp only [List.map_cons, List.count_cons, List.filter_cons]
      by_cases h : t.view = k <;> simp [h, ih]
  rw [h3, h1]
  unfold content
  omega

/-- **C05.** `re_sort` keeps every count and every key object and leaves the keys strictly
    increasing; `a + b` is sorted too. -/
theorem C05_resort (a b : TileSet) (ha : Counter.WF a) :
    (∀ k, content (reSort a) k = content a k) ∧ (reSort a).Perm a ∧
    ((reSort a).map (fun e => e.1.view)).Pairwise Kind.lt ∧
    ((TileSet.add a b).map (fun e => e.1.view)).Pairwise Kind.lt :=
  ⟨fun k => get_reSort ha k, reSort_perm a, reSort_sorted ha, reSort_sorted (Counter.WF_iadd ha b)⟩

/-- Non-trivial instance: a set with a red five, a stored zero and unsorted keys satisfies the
    hypotheses. -/
example : HandOK [(⟨.p, 3, false⟩, 2), (⟨.m, 0, true⟩, 1), (⟨.z, 7, false⟩, 0)] ∧
    content (TileSet.add [(⟨.p, 3, false⟩, 2), (⟨.m, 0, true⟩, 1)] [(⟨.m, 5, false⟩, 2)]) (.m, 5) = 3 ∧
    content (TileSet.sub [(⟨.p, 3, false⟩, 2), (⟨.m, 0, true⟩, 1)] [(⟨.m, 5, false⟩, 2)]) (.m, 5) = 0 := by
  decide

end Verif.Props
