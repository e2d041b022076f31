import Verif.Model.Reasoning
import Verif.Model.Category
import Verif.Model.State
import Verif.Model.Translate
import Verif.Py.Float

/-!
The record checker, `mahjong/tenhou_record_check.py`.

Not modelled here: logging, and what is in other files: `main` and `render_template` (`Model/Frontend.lean`), the HTML
template (`Model/PageText.lean`).  Python sets of tiles are lists used through membership and
sorting.  Quotients are floats: `roundDouble` of the exact quotient.
-/
namespace Verif.Model
open Verif.Py

/-! ### Counting helpers -/

/-- `range(n, n - r, -1)` (`mahjong/tenhou_record_check.py:29`) -/
def downFrom (n r : Int) : List Int := (List.range r.toNat).map (fun (i : Nat) => n - (i : Int))

/-- `n_a_r` (`mahjong/tenhou_record_check.py:28-29`). -/
def nAr (n r : Int) : Int := (downFrom n r).foldl (fun x y => x * y) 1

/-- `n_c_r` (`mahjong/tenhou_record_check.py:32-34`): `/` gives the float nearest to the quotient. -/
def nCr (n r : Int) : Except PyErr Rat :=
  let r := min r (n - r)
  if nAr r r = 0 then .error .zeroDivision else .ok (roundDouble ((nAr n r : Rat) / (nAr r r : Rat)))

/-! ### Unicode tiles -/

/-- `UNICODE_TILE_ORDER = "zmsp"` (`mahjong/tenhou_record_check.py:37`). -/
def UNICODE_TILE_ORDER : List Suit := [.z, .m, .s, .p]

/-- `UNICODE_HONOR_ORDER` (`mahjong/tenhou_record_check.py:39`). -/
def UNICODE_HONOR_ORDER : List Int := [0, 1, 2, 3, 4, 7, 6, 5]

/-- `TILE_CATEGORY` (`mahjong/tenhou_record_check.py:41`). -/
def TILE_CATEGORY : Except PyErr MixedCat := do
  let a ← SubCat.make [7]
  let b ← SubCat.make [9]
  MixedCat.make [a, b, b, b]

/-- `to_unicode_tile` (`mahjong/tenhou_record_check.py:44-51`): the code point. -/
def unicodeTile (t : Tile) : Except PyErr Int := do
  let color : Int := UNICODE_TILE_ORDER.idxOf t.color
  let number ← if t.color = .z then do pure ((← pyIdx UNICODE_HONOR_ORDER t.number) - 1) else pure (t.number - 1)
  let index ← (← TILE_CATEGORY).index [color, number]
  pure (0x1f000 + index)

/-! ### Reasoning items -/

/-- `ReasoningItem` (`mahjong/tenhou_record_check.py:62-69`) before `norm`. -/
structure RItem where
  discard : Tile
  step : Int
  useful : List Tile
  count : Int
  deriving DecidableEq, Repr

/-- `ReasoningItem` after `norm` (`mahjong/tenhou_record_check.py:71-75`). -/
structure NItem where
  discard : List Str
  step : Int
  useful : List Str
  count : Int
  deriving DecidableEq, Repr

/-- `norm` (`mahjong/tenhou_record_check.py:71-75`). -/
def RItem.norm (x : RItem) : NItem :=
  ⟨[x.discard.str], x.step, (pySorted Tile.lt x.useful).map Tile.str, x.count⟩

/-- `len(set(tile_to_tenhou_range(tile)) & invisible_set)` (`mahjong/tenhou_record_check.py:110,315`). -/
def rangeCount (inv : List InvElem) (t : Tile) : Except PyErr Int := do
  let r ← tileToTenhouRange t
  pure ((((List.range (r.2 - r.1).toNat).map (fun (i : Nat) => r.1 + (i : Int))).filter
    (fun n => decide (InvElem.num n ∈ inv))).length : Nat)

/-- `sum(... for tile in useful_tiles)` (`mahjong/tenhou_record_check.py:110-111,315-316`). -/
def usefulCount (inv : List InvElem) (us : List Tile) : Except PyErr Int := do
  let l ← us.mapM (rangeCount inv)
  pure l.sum

/-- `reduce_useful` (`mahjong/tenhou_record_check.py:97-103`). -/
def reduceUseful (x y : RItem) : RItem :=
  if x.step > y.step then y
  else if x.step = y.step then ⟨x.discard, x.step, setUpdate x.useful y.useful, 0⟩
  else x

/-- `reasoning_merge` (`mahjong/tenhou_record_check.py:106-111`); `reduce` of an empty list raises. -/
def reasoningMerge (inv : List InvElem) : List RItem → Except PyErr RItem
  | [] => .error .typeError
  | x :: l => do
    let item := l.foldl reduceUseful x
    let m ← pyMin ((x :: l).map RItem.step)
    let c ← usefulCount inv item.useful
    pure ⟨x.discard, m, item.useful, c⟩

/-- comparison of `reasoning_key` pairs (`mahjong/tenhou_record_check.py:114-115`). -/
def keyLt (x y : RItem) : Bool :=
  if x.step = y.step then decide (-x.count < -y.count) else decide (x.step < y.step)
/-- equality of two results of `reasoning_key` (`mahjong/tenhou_record_check.py:114-115`) -/
def keyEq (x y : RItem) : Bool := decide (x.step = y.step ∧ -x.count = -y.count)

/-- `convert_to_reasoning` (`mahjong/tenhou_record_check.py:314-317`). -/
def convertToReasoning (inv : List InvElem) (tile : Tile) (useful : List Tile) (step : Int) : Except PyErr RItem := do
  pure ⟨tile, step, useful, ← usefulCount inv useful⟩

/-- `one_win_reasoning` (`mahjong/tenhou_record_check.py:297-302`), run to its end.  A new
    `HeuristicPatternMatchWaiting` starts with `max_used_tiles = 0`. -/
def oneWinReasoning (inv : List InvElem) (hand : TileSet) (w : Pattern) : Except PyErr (List RItem) := do
  let l ← heurBatch 0 w true hand
  l.mapM (fun e => convertToReasoning inv e.1 e.2.2 e.2.1)

/-- `reasoning_discards` (`mahjong/tenhou_record_check.py:307-311`). -/
def reasoningDiscards (inv : List InvElem) (hand : TileSet) (tile : Tile) (w : Pattern) : Except PyErr RItem := do
  let r ← heurWaitingUseful 0 w true (TileSet.sub hand (Counter.ofIter [tile]))
  convertToReasoning inv tile r.2 r.1

/-- `zip(*lists)` for at least one list: stops with the shortest (`mahjong/tenhou_record_check.py:236`). -/
def zipLists {α : Type} : List (List α) → List (List α)
  | [] => []
  | [l] => l.map (fun x => [x])
  | l :: ls => (l.zip (zipLists ls)).map (fun p => p.1 :: p.2)

/-- `win_types` (`mahjong/tenhou_record_check.py:229-232`) for `meld_count` melds.  With more than four melds
    `NormalTypeWin(melds=-1)` never wins, so the first `before_waiting_step` takes the `min` of nothing: the
    resulting `ValueError` is raised here. -/
def winTypes (meldCount : Nat) : Except PyErr (List Pattern) :=
  if meldCount ≤ 4 then .ok (.normal 1 (4 - meldCount) :: (if meldCount = 0 then [.unique 7 []] else []))
  else .error .valueError

/-- `RoundReasoning` (`mahjong/tenhou_record_check.py:78-88`) with the attributes added at `:285-288`. -/
structure RoundReasoning where
  hand : List Str
  melds : List (List Str)
  yourChoice : NItem
  expected : List NItem
  merged : List NItem
  wrongRate : Rat
  somebodyRichii : Bool
  tables : List (Str × List NItem)

/-- `a ** d` for integers: a negative exponent gives a float, of zero an exception
    (`mahjong/tenhou_record_check.py:256`). -/
def pyPow (a d : Int) : Except PyErr Rat :=
  if 0 ≤ d then .ok ((a : Rat) ^ d.toNat)
  else if a = 0 then .error .zeroDivision
  else .ok (roundDouble (1 / (a : Rat) ^ (-d).toNat))

/-- `mahjong/tenhou_record_check.py:252-261`: `n` is `len(invisible_player_perspective)`.  `base` is an integer, or a
    float if the exponent is negative; the quotient and the difference from 1 are floats. -/
def wrongRate (n : Int) (expected your : RItem) : Except PyErr Rat := do
  let seqs ← pyPow n (your.step - expected.step)
  let base := if 0 ≤ your.step - expected.step then (expected.count : Rat) * seqs
    else roundDouble ((expected.count : Rat) * seqs)
  if base = 0 then .error .zeroDivision
  else pure (roundDouble (1 - roundDouble ((your.count : Rat) / base)))

/-- What the analyses of `discard_reasoning` work on and give (`mahjong/tenhou_record_check.py:225-237`). -/
structure Analysis where
  /-- `invisible_player_perspective` -/
  invisible : List InvElem
  /-- `hand`, after the analyses have re-sorted it in place -/
  hand : TileSet
  /-- `win_types` -/
  wins : List Pattern
  /-- `merged_win_reasonings` before it is sorted -/
  merged : List RItem

/-- the lists `all_win_type_reasoning` yields (`mahjong/tenhou_record_check.py:292-294`); the first analysis
    leaves the hand re-sorted. -/
def winReasonings (inv : List InvElem) (set : TileSet) : List Pattern → Except PyErr (List (List RItem))
  | [] => .ok []
  | w :: ws => do
    let a ← oneWinReasoning inv set w
    let b ← ws.mapM (oneWinReasoning inv (reSort set))
    pure (a :: b)

/-- `discard_reasoning` up to the merged items (`mahjong/tenhou_record_check.py:225-237`).
    `iter l` is the order in which Python iterates over the set with the elements `l`. -/
def analyse (iter : List Int → List Int) (hand : List Int) (inv : List InvElem) (melds : List Meld) :
    Except PyErr Analysis := do
  let invisible := setSub inv (hand.map InvElem.num)
  let meldCount := (melds.filter (fun m => decide (m.cls ≠ .kita))).length
  let tiles ← (iter hand).mapM tileFromTenhou
  let set : TileSet := Counter.ofIter tiles
  let wins ← winTypes meldCount
  let lists ← winReasonings invisible set wins
  let merged ← (zipLists lists).mapM (reasoningMerge invisible)
  pure ⟨invisible, reSort set, wins, merged⟩

/-- `merged_win_reasonings.sort(...)` and the first group of `groupby`
    (`mahjong/tenhou_record_check.py:238-240`); `next(groupby([]))` raises `StopIteration`. -/
def expectedReasonings (merged : List RItem) : Except PyErr (List RItem) :=
  match pySorted keyLt merged with
  | [] => .error .stopIteration
  | x :: l => .ok (x :: l.takeWhile (keyEq x))

/-- `discard_reasoning` (`mahjong/tenhou_record_check.py:224-289`).  `win_reasonings` is a generator, used up by
    `zip(*win_reasonings)` (`:236`): the loops over it at `:249` and `:285` have nothing left to do. -/
def discardReasoning (iter : List Int → List Int) (player : Fin 4) (e : Event) (hand : List Int)
    (inv : List InvElem) (melds : List Meld) : Except PyErr RoundReasoning := do
  let a ← analyse iter hand inv melds
  let expected ← expectedReasonings a.merged
  let index ← match playerDiscard player e with
    | some n => pure n
    | none => .error .attributeError
  let tile ← tileFromTenhou index
  let your ← reasoningMerge a.invisible (← a.wins.mapM (reasoningDiscards a.invisible a.hand tile))
  let best ← pyIdx expected 0
  let rate ← wrongRate a.invisible.length best your
  let meldStrs ← melds.mapM (fun m => tileNames (m.selfTiles ++ m.borrowedTiles))
  let remaining : List (List RItem) := []
  pure ⟨(TileSet.tiles a.hand).map Tile.str, meldStrs, your.norm, expected.map RItem.norm,
    (pySorted keyLt a.merged).map RItem.norm, rate, false,
    (["normal_reasonings".toList, "seven_pair_reasonings".toList].zip remaining).map (fun p => (p.1, p.2.map RItem.norm))⟩

/-! ### The loop over a game -/

/-- `itertools.groupby`, every group turned into a list before the next is asked for
    (`mahjong/tenhou_record_check.py:211,239`). -/
def pyGroupBy {α κ : Type} [DecidableEq κ] (key : α → κ) : List α → List (κ × List α)
  | [] => []
  | x :: l =>
    match pyGroupBy key l with
    | [] => [(key x, [x])]
    | (k, g) :: r => if key x = k then (k, x :: g) :: r else (key x, [x]) :: (k, g) :: r

/-- the key `player.is_discard(e)` (`mahjong/tenhou_record_check.py:211`): a match object, equal to no other
    object (so the position stands for it), or `None`. -/
def discardKey (player : Fin 4) (e : Event × Nat) : Option Nat :=
  if (playerDiscard player e.1).isSome then some e.2 else none

/-- The three states `game_reasoning` carries along (`mahjong/tenhou_record_check.py:203-206,219-221`). -/
structure CheckStates where
  hand : GState
  invisible : GState
  melds : GState

/-- `mahjong/tenhou_record_check.py:219-221`. -/
def CheckStates.pass (s : CheckStates) (es : List Event) : Except PyErr CheckStates := do
  pure ⟨← s.hand.passedEvents es, ← s.invisible.passedEvents es, ← s.melds.passedEvents es⟩

/-- `.value` of the three states (`mahjong/record/state.py:67-69`). -/
def handValue : GState → List Int
  | .hand _ l => l
  | _ => []
/-- `.value` of `InvisibleTiles` (`mahjong/record/state.py:199-201`) -/
def invisibleValue : GState → List InvElem
  | .invisible _ l => l
  | _ => []
/-- `.value` of `PlayerMeld` (`mahjong/record/state.py:116-118`) -/
def meldsValue : GState → List Meld
  | .melds _ l => l
  | _ => []

/-- A `StopIteration` leaving a generator's body becomes `RuntimeError` (PEP 479)
    (the generator is `mahjong/tenhou_record_check.py:209-221`). -/
def inGenerator {α : Type} : Except PyErr α → Except PyErr α
  | .error .stopIteration => .error .runtimeError
  | r => r

/-- the loop of `game_reasoning` (`mahjong/tenhou_record_check.py:211-221`): everything it yields. -/
def gameLoop (iter : List Int → List Int) (player : Fin 4) :
    Bool → CheckStates → List (Option Nat × List Event) → Except PyErr (List RoundReasoning)
  | _, _, [] => .ok []
  | richii, s, (discarded, round) :: rest => do
    let richii := richii || round.any isRichii
    let out ← match discarded with
      | some _ => do
        let first ← pyIdx round 0
        let r ← inGenerator (discardReasoning iter player first (handValue s.hand) (invisibleValue s.invisible) (meldsValue s.melds))
        pure [{ r with somebodyRichii := richii }]
      | none => pure []
    let s' ← s.pass round
    let more ← gameLoop iter player richii s' rest
    pure (out ++ more)

/-- `game_reason_list` (`mahjong/tenhou_record_check.py:201-206`) with `game_reasoning` (`:209-221`), for a game of
    four or three players. -/
def gameReasonList (iter : List Int → List Int) (player : Fin 4) (four : Bool) (events : List Event) :
    Except PyErr (List RoundReasoning) :=
  gameLoop iter player false ⟨.hand player [], .invisible four (initialInvisible four), .melds player []⟩
    ((pyGroupBy (discardKey player) events.zipIdx).map (fun g => (g.1, g.2.map (fun x => x.1))))

end Verif.Model
