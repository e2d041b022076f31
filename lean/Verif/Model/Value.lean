import Verif.Model.Record

/-!
The values commands carry (what `json.dumps` accepts, without dictionaries) and the operations
`property_manager.py` applies to them.
-/
namespace Verif.Model
open Verif.Py

/-- A value: `None`, a bool, a number, a text, a list.  Numbers are those `number_list` produces: integers and
    non-integral decimals (a float with an integral value is not told from the integer; NaN and infinities are
    not modelled) (the `value` and `state` of `mahjong/record/universe/command.py:58-66`). -/
inductive Val where
  | none
  | bool (b : Bool)
  | num (n : Num)
  | str (s : Str)
  | list (l : List Val)
  deriving Repr

mutual
/-- deciding whether two values are the same (no Python code) (values of `mahjong/record/universe/command.py:62`) -/
def Val.decEq : (a b : Val) → Decidable (a = b)
  | .none, .none => isTrue rfl
  | .bool a, .bool b => if h : a = b then isTrue (by rw [h]) else isFalse (by intro e; cases e; exact h rfl)
  | .num a, .num b => if h : a = b then isTrue (by rw [h]) else isFalse (by intro e; cases e; exact h rfl)
  | .str a, .str b => if h : a = b then isTrue (by rw [h]) else isFalse (by intro e; cases e; exact h rfl)
  | .list a, .list b =>
    match Val.decEqs a b with
    | isTrue h => isTrue (by rw [h])
    | isFalse h => isFalse (by intro e; cases e; exact h rfl)
  | .none, .bool _ => isFalse (by intro e; cases e)
  | .none, .num _ => isFalse (by intro e; cases e)
  | .none, .str _ => isFalse (by intro e; cases e)
  | .none, .list _ => isFalse (by intro e; cases e)
  | .bool _, .none => isFalse (by intro e; cases e)
  | .bool _, .num _ => isFalse (by intro e; cases e)
  | .bool _, .str _ => isFalse (by intro e; cases e)
  | .bool _, .list _ => isFalse (by intro e; cases e)
  | .num _, .none => isFalse (by intro e; cases e)
  | .num _, .bool _ => isFalse (by intro e; cases e)
  | .num _, .str _ => isFalse (by intro e; cases e)
  | .num _, .list _ => isFalse (by intro e; cases e)
  | .str _, .none => isFalse (by intro e; cases e)
  | .str _, .bool _ => isFalse (by intro e; cases e)
  | .str _, .num _ => isFalse (by intro e; cases e)
  | .str _, .list _ => isFalse (by intro e; cases e)
  | .list _, .none => isFalse (by intro e; cases e)
  | .list _, .bool _ => isFalse (by intro e; cases e)
  | .list _, .num _ => isFalse (by intro e; cases e)
  | .list _, .str _ => isFalse (by intro e; cases e)
/-- the same for lists (values of `mahjong/record/universe/command.py:62`) -/
def Val.decEqs : (a b : List Val) → Decidable (a = b)
  | [], [] => isTrue rfl
  | [], _ :: _ => isFalse (by intro e; cases e)
  | _ :: _, [] => isFalse (by intro e; cases e)
  | x :: xs, y :: ys =>
    match Val.decEq x y, Val.decEqs xs ys with
    | isTrue h, isTrue h' => isTrue (by rw [h, h'])
    | isFalse h, _ => isFalse (by intro e; cases e; exact h rfl)
    | _, isFalse h => isFalse (by intro e; cases e; exact h rfl)
end

/-- deciding whether two values are the same (no Python code; values of `mahjong/record/universe/command.py:62`) -/
instance : DecidableEq Val := Val.decEq

mutual
/-- What Python's `==` compares: `True == 1` and `False == 0` (`mahjong/record/universe/property_manager.py:70`). -/
def Val.canon : Val → Val
  | .bool b => .num (.int (if b then 1 else 0))
  | .list l => .list (Val.canons l)
  | v => v
/-- the same for lists (`mahjong/record/universe/property_manager.py:70`) -/
def Val.canons : List Val → List Val
  | [] => []
  | v :: l => v.canon :: Val.canons l
end

/-- `a == b` (`mahjong/record/universe/property_manager.py:70`) -/
def Val.eq (a b : Val) : Bool := decide (a.canon = b.canon)

/-- the number behind a number or bool (`mahjong/record/universe/property_manager.py:104,109`) -/
def Val.asNum : Val → Option Num
  | .bool b => some (.int (if b then 1 else 0))
  | .num n => some n
  | _ => Option.none

/-- `a + b`, `a - b` on numbers, exact (`mahjong/record/universe/property_manager.py:104`) -/
def Num.add (a b : Num) : Num := Num.norm (a.num * 10 ^ b.scale + b.num * 10 ^ a.scale) (a.scale + b.scale)
/-- `a - b` on numbers, exact (`mahjong/record/universe/property_manager.py:109`) -/
def Num.sub (a b : Num) : Num := Num.norm (a.num * 10 ^ b.scale - b.num * 10 ^ a.scale) (a.scale + b.scale)

/-- `add_general` (`mahjong/record/universe/property_manager.py:102-104`): Python's `+`. -/
def Val.add (a b : Val) : Except PyErr Val :=
  match a, b with
  | .str x, .str y => .ok (.str (x ++ y))
  | .list x, .list y => .ok (.list (x ++ y))
  | a, b =>
    match a.asNum, b.asNum with
    | some x, some y => .ok (.num (x.add y))
    | _, _ => .error .typeError

/-- `remove_general` (`mahjong/record/universe/property_manager.py:107-109`): Python's `-`. -/
def Val.sub (a b : Val) : Except PyErr Val :=
  match a.asNum, b.asNum with
  | some x, some y => .ok (.num (x.sub y))
  | _, _ => .error .typeError

/-- `list.remove(val)`: drops the first item `==` to it (`mahjong/record/universe/property_manager.py:98`). -/
def listRemove (l : List Val) (v : Val) : Except PyErr (List Val) :=
  match l with
  | [] => .error .valueError
  | x :: l =>
    if x.eq v then .ok l
    else (listRemove l v).map (fun r => x :: r)

/-- what `for val in values` goes through; a text gives its characters
    (`mahjong/record/universe/property_manager.py:97`) -/
def Val.iter : Val → Except PyErr (List Val)
  | .list l => .ok l
  | .str s => .ok (s.map (fun c => .str [c]))
  | _ => .error .typeError

/-- the loop of `remove_all` (`mahjong/record/universe/property_manager.py:97-98`) -/
def removeLoop (l : List Val) : List Val → Except PyErr (List Val)
  | [] => .ok l
  | v :: vs => do
    let l' ← listRemove l v
    removeLoop l' vs

/-- `remove_all` (`mahjong/record/universe/property_manager.py:94-99`): only lists have `copy`. -/
def removeAll (lst values : Val) : Except PyErr Val :=
  match lst with
  | .list l => do
    let vs ← values.iter
    let r ← removeLoop l vs
    pure (.list r)
  | _ => .error .attributeError

/-- whether a value can be a dictionary key: lists cannot
    (`Counter(..)` in `mahjong/record/universe/property_manager.py:65`) -/
def Val.hashable : Val → Bool
  | .list _ => false
  | _ => true

/-- dictionary keys are compared with `==` (`Counter(..)` in `mahjong/record/universe/property_manager.py:65`) -/
instance : Keyed Val Val := ⟨Val.canon⟩

/-- `Counter(x)`: `None` gives an empty counter (`mahjong/record/universe/property_manager.py:65`) -/
def counterOf (v : Val) : Except PyErr (Counter Val) :=
  match v with
  | .none => .ok []
  | v => do
    let l ← v.iter
    if l.all Val.hashable then pure (Counter.ofIter l) else .error .typeError

/-- `==` of two dictionaries: same number of keys, every key of the first in the second with the same value
    (`mahjong/record/universe/property_manager.py:65`) -/
def dictEq (c d : Counter Val) : Bool :=
  decide (c.length = d.length) &&
    c.all (fun e => Counter.has d e.1.canon && decide (Counter.get d e.1.canon = e.2))

/-- `tiles_equal` (`mahjong/record/universe/property_manager.py:63-65`). -/
def tilesEqual (expected actual : Val) : Except PyErr Bool := do
  let a ← counterOf expected
  let b ← counterOf actual
  pure (dictEq a b)

end Verif.Model
