import Verif.Model.Tile

/-!
The interning constructors `Tile.__new__` and `AkaTile.__new__`
(`mahjong/tile/definition.py:30-49,120-143`): object identity, not only the value.
-/
namespace Verif.Model

/-- The process state the constructors touch.  `objs` lists the objects created so far (an object is
    its position: `(_color, _number, is AkaTile)`), `pool` is `Tile._TILE_POOL` and `akaPool` is
    `AkaTile._ATILE_POOL` (hash → object) (`mahjong/tile/definition.py:30,121`). -/
structure PoolState where
  objs : List (Suit × Int × Bool)
  pool : List (Int × Nat)
  akaPool : List (Int × Nat)
  deriving DecidableEq, Repr

/-- The state right after the module is imported (`mahjong/tile/definition.py:30,121`). -/
def PoolState.init : PoolState := ⟨[], [], []⟩

/-- `Tile.__new__(Tile, number, color)` (`mahjong/tile/definition.py:32-49`): the returned object and
    the state after the call.  Building `_flush`, `_triplet` and `_pair` calls the constructor again;
    `fuel` bounds that nesting (`none` = nesting deeper than `fuel`). -/
def newTile : Nat → PoolState → Int → Suit → Option (Nat × PoolState)
  | 0, _, _, _ => none
  | fuel + 1, st, number, color =>
    let tile_hash := tileHashNum color number
    match st.pool.lookup tile_hash with
    | some obj => some (obj, st)
    | none =>
      let obj := st.objs.length
      let st : PoolState := ⟨st.objs ++ [(color, number, false)], st.pool ++ [(tile_hash, obj)], st.akaPool⟩
      -- _flush: lines 44-46
      let st? : Option PoolState :=
        if color ≠ Suit.z ∧ number ≤ 9 - 3 + 1 then do
          let (_, st) ← newTile fuel st (number + 0) color
          let (_, st) ← newTile fuel st (number + 1) color
          let (_, st) ← newTile fuel st (number + 2) color
          pure st
        else some st
      -- _triplet and _pair: lines 47-48, five more constructor calls
      match st? with
      | none => none
      | some st => do
        let (_, st) ← newTile fuel st number color
        let (_, st) ← newTile fuel st number color
        let (_, st) ← newTile fuel st number color
        let (_, st) ← newTile fuel st number color
        let (_, st) ← newTile fuel st number color
        pure (obj, st)

/-- Enough nesting for `Tile(number, _)` with `number >= 0`
    (`mahjong/tile/definition.py:32-49`, recursion of `Tile.__new__`). -/
def poolFuel : Nat := 12

/-- A history of `Tile(number, color)` calls from the freshly imported module
    (callers of `mahjong/tile/definition.py:32-49`, `Tile.__new__`). -/
def runTiles : PoolState → List (Int × Suit) → Option PoolState
  | st, [] => some st
  | st, (n, c) :: calls =>
    match newTile poolFuel st n c with
    | some (_, st) => runTiles st calls
    | none => none

/-- `AkaTile.__new__(AkaTile, 0, color)` (`mahjong/tile/definition.py:123-143`), without the calls of
    the plain constructor for its run and sets: looked up under `color*10 + 0`, stored under
    `color*10 + 5`. -/
def newAka (st : PoolState) (color : Suit) : Nat × PoolState :=
  match st.akaPool.lookup (tileHashNum color 0) with
  | some obj => (obj, st)
  | none =>
    (st.objs.length, ⟨st.objs ++ [(color, 0, true)], st.pool,
      (tileHashNum color (0 + 5), st.objs.length) :: st.akaPool⟩)

end Verif.Model
