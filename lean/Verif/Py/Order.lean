/-
Python's list comparison, `sorted` and `bisect.bisect_left`, for items compared by `==` and `<`.
-/
namespace Verif.Py

/-- `a == b` for Python lists
    (used e.g. in `mahjong/container/pattern/win.py`, `mahjong/record/reader.py:164`, `mahjong/record/universe/tenhou/event_definition.py:288`). -/
def listEq {α : Type} (eq : α → α → Bool) : List α → List α → Bool
  | [], [] => true
  | a :: l, b :: m => eq a b && listEq eq l m
  | _, _ => false

/-- `a < b` for Python lists: the first position where the items are not `==` decides,
    otherwise the shorter list is smaller
    (used e.g. in `mahjong/container/pattern/win.py`, `mahjong/record/reader.py:164`, `mahjong/record/universe/tenhou/event_definition.py:288`). -/
def listLt {α : Type} (eq lt : α → α → Bool) : List α → List α → Bool
  | [], [] => false
  | [], _ :: _ => true
  | _ :: _, [] => false
  | a :: l, b :: m => if eq a b then listLt eq lt l m else lt a b

/-- Stable insertion: after every element that is not greater
    (used e.g. in `mahjong/container/pattern/win.py`, `mahjong/record/reader.py:164`, `mahjong/record/universe/tenhou/event_definition.py:288`). -/
def insertSorted {α : Type} (lt : α → α → Bool) (x : α) : List α → List α
  | [] => [x]
  | y :: l => if lt x y then x :: y :: l else y :: insertSorted lt x l

/-- `sorted(l)`.  Python's sort is stable; for a strict weak order the stable sorted list is unique,
    so an insertion sort computes the same list
    (used e.g. in `mahjong/container/pattern/win.py`, `mahjong/record/reader.py:164`, `mahjong/record/universe/tenhou/event_definition.py:288`). -/
def pySorted {α : Type} (lt : α → α → Bool) (l : List α) : List α :=
  l.foldl (fun acc x => insertSorted lt x acc) []

/-- The loop of CPython's `bisect.bisect_left(a, x, lo, hi)`; `hi - lo` strictly decreases
    (used in `mahjong/container/utils.py:25-31`, `distinct`). -/
def bisectLeftLoop {α : Type} (lt : α → α → Bool) (a : List α) (x : α) (lo hi : Nat) : Nat :=
  if _h : lo < hi then
    let mid := (lo + hi) / 2
    if (match a[mid]? with | some y => lt y x | none => false) then
      bisectLeftLoop lt a x (mid + 1) hi
    else bisectLeftLoop lt a x lo mid
  else lo
termination_by hi - lo
decreasing_by all_goals omega

/-- `bisect.bisect_left(a, x)` (used in `mahjong/container/utils.py:25-31`, `distinct`). -/
def bisectLeft {α : Type} (lt : α → α → Bool) (a : List α) (x : α) : Nat :=
  bisectLeftLoop lt a x 0 a.length

end Verif.Py
