import Verif.Proofs.TilePool
import Verif.Proofs.Groups

/-! Properties C01 and C02: tiles. -/
namespace Verif.Props
open Verif.Model Verif.Spec Verif.Proofs

/-- **C01.** After any history `before` of in-range constructor calls, `Tile(n, c)` with `0 ≤ n ≤ 9`
    returns an object whose colour and number are the requested ones (and which is a plain tile), and
    after any further in-range calls `between`, calling it again returns the very same object,
    whose attributes have not changed. -/
theorem C01_interning (before between : List (Int × Suit))
    (hb : ∀ x ∈ before, 0 ≤ x.1 ∧ x.1 ≤ 9) (hb' : ∀ x ∈ between, 0 ≤ x.1 ∧ x.1 ≤ 9)
    (n : Int) (c : Suit) (h0 : 0 ≤ n) (h9 : n ≤ 9) :
    ∃ st o st' st'' st''',
      runTiles PoolState.init before = some st ∧
      newTile poolFuel st n c = some (o, st') ∧ st'.objs[o]? = some (c, n, false) ∧
      runTiles st' between = some st'' ∧
      newTile poolFuel st'' n c = some (o, st''') ∧ st'''.objs[o]? = some (c, n, false) := by
  obtain ⟨st, e1, hok, _⟩ := runTiles_ok before hb poolOK_init
  obtain ⟨o, st', e2, hok', _, hob, hlk⟩ := newTile_ok poolFuel hok n c h0 h9
    (by simp [poolFuel]; omega)
  obtain ⟨st'', e3, hok'', hle⟩ := runTiles_ok between hb' hok'
  have hl := hle.pool _ _ hlk
  have := newTile_hit (fuel := 11) hok'' h0 h9 hl
  exact ⟨st, o, st', st'', st'', e1, e2, hob, e3, this.1, this.2⟩

/-- a non-trivial instance: two calls in between, on a run tile and an honour. -/
example : ∃ st o st' st'' st''',
      runTiles PoolState.init [(1, .m), (3, .m)] = some st ∧
      newTile poolFuel st 5 .m = some (o, st') ∧ st'.objs[o]? = some (.m, 5, false) ∧
      runTiles st' [(0, .p), (7, .z)] = some st'' ∧
      newTile poolFuel st'' 5 .m = some (o, st''') ∧ st'''.objs[o]? = some (.m, 5, false) :=
  C01_interning [(1, .m), (3, .m)] [(0, .p), (7, .z)] (by decide) (by decide) 5 .m
    (by decide) (by decide)

/-- **C01, out of range.** The range condition on the history cannot be dropped: after `Tile(10,'m')`,
    `Tile(0,'p')` returns the object of `10m`. -/
theorem C01_out_of_range_history :
    ∃ st o st', runTiles PoolState.init [(10, .m)] = some st ∧
      newTile poolFuel st 0 .p = some (o, st') ∧ st'.objs[o]? = some (.m, 10, false) :=
  ⟨⟨[(.m, 10, false)], [(10, 0)], []⟩, 0, ⟨[(.m, 10, false)], [(10, 0)], []⟩,
    by decide, by decide, by decide⟩

/-- **C01, red tiles.** `AkaTile(0, c)` is not interned: from a pool filled only by earlier `AkaTile`
    calls (so with keys `c*10+5` only) two calls return two different objects. -/
theorem C01_aka_not_interned (st : PoolState) (c : Suit)
    (hkeys : ∀ c' : Suit, st.akaPool.lookup (tileHashNum c' 0) = none) :
    let (o1, st1) := newAka st c
    let (o2, _) := newAka st1 c
    o1 ≠ o2 ∧ ∀ c' : Suit, st1.akaPool.lookup (tileHashNum c' 0) = none := by
  have h1 : (st.akaPool.lookup (tileHashNum c 0)) = none := hkeys c
  have h2 : ∀ c' : Suit, List.lookup (tileHashNum c' 0)
      ((tileHashNum c (0 + 5), st.objs.length) :: st.akaPool) = none := by
    intro c'
    have hne : (tileHashNum c' 0 == tileHashNum c (0 + 5)) = false := by
      cases c <;> cases c' <;> decide
    simp only [List.lookup, hne]
    exact hkeys c'
  simp only [newAka, h1]
  rw [h2 c]
  simp only [List.length_append, List.length_cons, List.length_nil]
  exact ⟨by omega, h2⟩

example : ∀ c' : Suit, PoolState.init.akaPool.lookup (tileHashNum c' 0) = none :=
  fun _ => rfl

/-- **C02.** `==` on tiles is an equivalence relation and `!=` its negation. -/
theorem C02_eq_equivalence (a b c : Tile) :
    a.eq a = true ∧ (a.eq b = true → b.eq a = true) ∧
    (a.eq b = true → b.eq c = true → a.eq c = true) ∧ (a.ne b = true ↔ ¬ a.eq b = true) := by
  simp only [Tile.eq, Tile.ne, decide_eq_true_eq, ne_eq, true_and]
  exact ⟨fun h => h.symm, fun h1 h2 => h1.trans h2, trivial⟩

/-- **C02.** `<` is a strict total order up to `==`: irreflexive, transitive, and exactly one of
    `a < b`, `a == b`, `b < a` holds; the derived comparisons agree with it. -/
theorem C02_lt_total (a b c : Tile) :
    a.lt a = false ∧ (a.lt b = true → b.lt c = true → a.lt c = true) ∧
    ((a.lt b = true ∧ a.eq b = false ∧ b.lt a = false) ∨
     (a.lt b = false ∧ a.eq b = true ∧ b.lt a = false) ∨
     (a.lt b = false ∧ a.eq b = false ∧ b.lt a = true)) ∧
    (a.le b = true ↔ a.lt b = true ∨ a.eq b = true) ∧
    (a.gt b = true ↔ b.lt a = true) ∧ (a.ge b = true ↔ b.lt a = true ∨ a.eq b = true) := by
  have tri : ((a.lt b = true ∧ a.eq b = false ∧ b.lt a = false) ∨
     (a.lt b = false ∧ a.eq b = true ∧ b.lt a = false) ∨
     (a.lt b = false ∧ a.eq b = false ∧ b.lt a = true)) := by
    simp only [Tile.lt, Tile.eq, decide_eq_true_eq, decide_eq_false_iff_not]
    rcases Kind.lt_tri a.view b.view with h | h | h
    · exact Or.inl ⟨h, Kind.lt_ne h, Kind.lt_asymm h⟩
    · rw [h]; exact Or.inr (Or.inl ⟨Kind.lt_irrefl _, rfl, Kind.lt_irrefl _⟩)
    · exact Or.inr (Or.inr ⟨Kind.lt_asymm h, fun h' => Kind.lt_ne h h'.symm, h⟩)
  refine ⟨?_, ?_, tri, ?_, ?_, ?_⟩
  · simp [Tile.lt, Kind.lt_irrefl]
  · simp only [Tile.lt, decide_eq_true_eq]; exact Kind.lt_trans
  · simp [Tile.le]
  · have hne : a.ne b = !(a.eq b) := by simp [Tile.ne, Tile.eq]
    rcases tri with ⟨h1, h2, h3⟩ | ⟨h1, h2, h3⟩ | ⟨h1, h2, h3⟩ <;> simp [Tile.gt, h1, h2, h3, hne]
  · rcases tri with ⟨h1, h2, h3⟩ | ⟨h1, h2, h3⟩ | ⟨h1, h2, h3⟩ <;> simp [Tile.ge, h1, h2, h3]

/-- **C02.** The order is the documented one: suits in the order m, p, s, z, then the number
    (a red five counts as 5). -/
theorem C02_lt_meaning (c d : Suit) (m n : Int) :
    (Tile.mk c m false).lt (Tile.mk d n false) = true ↔
      c.ord < d.ord ∨ (c = d ∧ m < n) := by
  simp [Tile.lt, Tile.view, Kind.lt]

/-- **C02.** Equal tiles have equal hashes. -/
theorem C02_hash (a b : Tile) (h : a.eq b = true) : a.hash = b.hash := by
  simp only [Tile.eq, decide_eq_true_eq] at h
  have h1 : ∀ t : Tile, t.hash = tileHashNum t.view.1 t.view.2 := fun t => rfl
  rw [h1, h1, h]

/-- **C02.** The red five `AkaTile(0, c)` equals `Tile(5, c)` and no other plain tile. -/
theorem C02_red_five (c d : Suit) (n : Int) :
    (Tile.mk c 0 true).eq (Tile.mk d n false) = true ↔ c = d ∧ n = 5 := by
  simp only [Tile.eq, Tile.view, decide_eq_true_eq, Prod.mk.injEq, if_true, Bool.false_eq_true, if_false]
  constructor
  · rintro ⟨h1, h2⟩; exact ⟨h1, by omega⟩
  · rintro ⟨h1, h2⟩; exact ⟨h1, by omega⟩

example : (Tile.mk .m 0 true).lt (Tile.mk .m 6 false) = true ∧
    (Tile.mk .m 9 false).lt (Tile.mk .p 1 false) = true ∧
    (Tile.mk .s 0 true).eq (Tile.mk .s 5 false) = true := by decide

end Verif.Props
