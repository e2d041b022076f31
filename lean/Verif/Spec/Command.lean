import Verif.Model.Executor

/-! Properties, values and commands, specified directly. -/
namespace Verif.Spec
open Verif.Py Verif.Model

/-- The kinds of properties. -/
inductive PropKind where
  | index | score | tiles | melds | text | bool | float | int | list
  deriving DecidableEq, Repr

/-- what Python's `ViewType` has for a kind -/
def PropKind.viewType : PropKind → ViewType
  | .index => ViewType.index
  | .score => ViewType.score
  | .tiles => ViewType.tiles
  | .melds => ViewType.melds
  | .text => ViewType.str
  | .bool => ViewType.bool
  | .float => ViewType.float
  | .int => ViewType.int
  | .list => ViewType.list

/-- kinds whose values are lists -/
def PropKind.isList (k : PropKind) : Bool := k = .tiles || k = .melds || k = .list

/-- Every property with its kind. -/
def kindTable : List (Scope × String × PropKind) :=
  [(.game, "wind", .index), (.game, "round", .index), (.game, "sub_round", .index), (.game, "dora_indicators", .tiles),
   (.game, "richii_remain_scores", .score), (.game, "dealer", .index), (.game, "nobody_win", .bool),
   (.game, "extra_reason", .text),
   (.player, "name", .text), (.player, "level", .text), (.player, "extra_level", .text), (.player, "hand", .tiles),
   (.player, "in_richii", .bool), (.player, "discard_tiles", .tiles), (.player, "discard_from_hand", .list),
   (.player, "fixed_meld", .melds), (.player, "meld_public_tiles", .tiles), (.player, "score", .score),
   (.player, "bonus_tiles", .tiles), (.player, "round", .index), (.player, "disconnected", .bool),
   (.player, "is_dealer", .bool), (.player, "is_win", .bool), (.player, "is_self_win", .bool),
   (.player, "is_discard_lose_game", .bool), (.player, "faans", .list), (.player, "rank", .int),
   (.player, "final_score", .score), (.player, "final_point", .float),
   (.record, "player_count", .index), (.record, "play_level", .text), (.record, "has_aka_dora", .bool),
   (.record, "speed_up", .bool), (.record, "allow_tanyao_open", .bool), (.record, "play_wind_count", .index),
   (.record, "show_discard_shadow", .bool), (.record, "seed", .text), (.record, "using_tiles", .list)]

/-- `v` is a property of kind `k` -/
def HasKind (v : View) (k : PropKind) : Prop := ∃ s n, (s, n, k) ∈ kindTable ∧ v = Verif.Model.view s n

/-- a property of some kind -/
def IsProperty (v : View) : Prop := ∃ k, HasKind v k

/-- a number in normal form: an integer, or decimals without trailing zero -/
def NumOk : Num → Prop
  | .int _ => True
  | .dec m k => 1 ≤ k ∧ m % 10 ≠ 0

mutual
/-- a value all of whose numbers are in normal form -/
def ValOk : Val → Prop
  | .num n => NumOk n
  | .list l => ValsOk l
  | _ => True
def ValsOk : List Val → Prop
  | [] => True
  | v :: l => ValOk v ∧ ValsOk l
end

/-- a sub-scope id that is not a text of digits -/
def SubOk : Sub → Prop
  | .text s => ¬ (s ≠ [] ∧ ∀ c ∈ s, isDigit c = true)
  | .num _ => True

/-- how many items of `l` are `==` to `x` -/
def occ (x : Val) (l : List Val) : Nat := (l.filter (fun y => y.eq x)).length

/-- the items a tile property stands for; `None` stands for no tiles, lists inside lists for nothing -/
def tileItems : Val → Option (List Val)
  | .none => some []
  | .list l => if l.all Val.hashable then some l else none
  | .str s => some (s.map (fun c => .str [c]))
  | _ => none

/-- two values of a property of kind `k` can be compared and are the same: for tiles the same items equally
    often, for other kinds `==` -/
def Same (k : PropKind) (a b : Val) : Prop :=
  if k = .tiles then ∃ la lb, tileItems a = some la ∧ tileItems b = some lb ∧ ∀ x, occ x la = occ x lb
  else a.eq b = true

/-- ... can be compared and differ -/
def Differ (k : PropKind) (a b : Val) : Prop :=
  if k = .tiles then ∃ la lb, tileItems a = some la ∧ tileItems b = some lb ∧ ∃ x, occ x la ≠ occ x lb
  else a.eq b = false

/-- the time of a command as a value -/
def timeLeaf : Option Int → Val
  | some n => .num (.int n)
  | none => .none

/-- what stands at a path of keys -/
def reads : Tree → List Key → Option Tree
  | t, [] => some t
  | .leaf _, _ :: _ => none
  | .node kids, k :: ks => (kids.lookup k).bind (fun t => reads t ks)

/-- `d[k1][k2]...` -/
def goTo (d : TD) : List Key → Except PyErr TD
  | [] => .ok d
  | k :: ks => do goTo (← d.child k) ks

/-- a write `d[k1][k2]....set(k, v)` -/
structure Write where
  path : List Key
  key : Key
  value : Val

def Write.full (w : Write) : List Key := w.path ++ [w.key]

/-- writes one after the other, each through the root the one before returned -/
def writeAll (d : TD) : List Write → Except PyErr TD
  | [] => .ok d
  | w :: ws => do
    let e ← goTo d w.path
    writeAll (e.set w.key (.leaf w.value)) ws

/-- the last value written at a path -/
def lastWrite (p : List Key) (ws : List Write) : Option Val :=
  ((ws.filter (fun w => decide (w.full = p))).getLast?).map Write.value

/-- neither path leads through the other -/
def Apart (p q : List Key) : Prop := ¬ p <+: q ∧ ¬ q <+: p

/-- the commands `GameExecutor` accepts: game and record properties for "all", player properties for players
    0 to 3 -/
def Addressed (c : Cmd) : Prop :=
  IsProperty c.prop ∧
  match c.prop.scope with
  | .player => ∃ p : Fin 4, c.sub = .num (p.val : Int)
  | _ => c.sub = Sub.all

/-- where the value of a property stands in an executor state -/
def placeOf (sub : Sub) (v : View) : List Key :=
  match v.scope, sub with
  | .player, .num n => [.scope .player, .player (Fin.ofNat 4 n.toNat), .prop v]
  | s, _ => [.scope s, .text "single".toList, .prop v]

/-- interpreting commands one after the other with one `GameInterpreter` -/
def interpretAll (s : IState) : List Cmd → Except PyErr IState
  | [] => .ok s
  | c :: cs => do interpretAll (← interpret s c).2 cs

/-- command number `k` asserts a value that differs from the one its property has by then -/
def Mismatch (cs : List Cmd) (k : Nat) : Prop :=
  ∃ c s old kind, cs[k]? = some c ∧ c.update = .assertEqualOrSet ∧ interpretAll [] (cs.take k) = .ok s ∧
    s.lookup (c.sub, c.prop) = some old ∧ HasKind c.prop kind ∧ Differ kind c.value old

end Verif.Spec
