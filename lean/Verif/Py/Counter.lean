/-
Python's `collections.Counter` (an insertion-ordered dict from keys to integers), as used by
`mahjong/container/set.py`.  Python looks keys up with `==`/`hash`; for tiles that is
`_tuple_view` (`mahjong/tile/definition.py:51-61`), so two *different* key objects (a red five and a
plain five) may be the same key.  `Keyed.view` is the value `==` compares.  A dict keeps the key
object that was inserted first and the position of the first insertion.
-/
namespace Verif.Py

/-- `view a` is the value on which Python's `==` and `hash` of the key `a` depend. -/
class Keyed (α : Type) (κ : outParam Type) where
  view : α → κ

export Keyed (view)

/-- CPython dict order: a list of (key object, count) in insertion order
    (`Counter` as used by `mahjong/container/set.py:10-73` and `mahjong/container/pattern/reasoning.py:49-53,109-122`). -/
abbrev Counter (α : Type) := List (α × Int)

namespace Counter
variable {α κ : Type} [Keyed α κ] [DecidableEq κ]

/-- `Counter.__getitem__`: a missing key reads 0 (CPython `Counter.__missing__`)
    (`Counter` as used by `mahjong/container/set.py:10-73` and `mahjong/container/pattern/reasoning.py:49-53,109-122`). -/
def get : Counter α → κ → Int
  | [], _ => 0
  | (a, n) :: c, k => if view a = k then n else get c k

/-- `key in counter` (dict membership)
    (`Counter` as used by `mahjong/container/set.py:10-73` and `mahjong/container/pattern/reasoning.py:49-53,109-122`). -/
def has : Counter α → κ → Bool
  | [], _ => false
  | (a, _) :: c, k => if view a = k then true else has c k

/-- `counter[a] = n`: keeps the key object and position of an existing equal key, else appends
    (`Counter` as used by `mahjong/container/set.py:10-73` and `mahjong/container/pattern/reasoning.py:49-53,109-122`). -/
def set : Counter α → α → Int → Counter α
  | [], a, n => [(a, n)]
  | (b, m) :: c, a, n => if view b = view a then (b, n) :: c else (b, m) :: set c a n

/-- `del counter[a]`: `Counter.__delitem__` does not raise when the key is missing
    (`Counter` as used by `mahjong/container/set.py:10-73` and `mahjong/container/pattern/reasoning.py:49-53,109-122`). -/
def del (c : Counter α) (k : κ) : Counter α := c.filter (fun e => decide (view e.1 ≠ k))

/-- `counter.keys()` compared by `==`
    (`Counter` as used by `mahjong/container/set.py:10-73` and `mahjong/container/pattern/reasoning.py:49-53,109-122`). -/
def keys (c : Counter α) : List κ := c.map (fun e => view e.1)

/-- `sum(counter.values())`; also `TileSet.__len__` (`mahjong/container/set.py:50-51`). -/
def total (c : Counter α) : Int := (c.map (fun e => e.2)).sum

/-- `Counter(iterable)`: counts the elements in order (`_count_elements`)
    (`Counter` as used by `mahjong/container/set.py:10-73` and `mahjong/container/pattern/reasoning.py:49-53,109-122`). -/
def ofIter (l : List α) : Counter α :=
  l.foldl (fun c a => c.set a (c.get (view a) + 1)) []

/-- `Counter._keep_positive`: delete entries whose count is not `> 0`, keep order
    (`Counter` as used by `mahjong/container/set.py:10-73` and `mahjong/container/pattern/reasoning.py:49-53,109-122`). -/
def keepPositive (c : Counter α) : Counter α := c.filter (fun e => decide (0 < e.2))

/-- the loop `for elem, count in other.items(): self[elem] += count`
    (`Counter` as used by `mahjong/container/set.py:10-73` and `mahjong/container/pattern/reasoning.py:49-53,109-122`). -/
def addLoop (c d : Counter α) : Counter α :=
  d.foldl (fun c e => c.set e.1 (c.get (view e.1) + e.2)) c

/-- `Counter.subtract(mapping)`: `for elem, count in ...: self[elem] = self.get(elem, 0) - count`;
    keeps zero and negative counts
    (`Counter` as used by `mahjong/container/set.py:10-73` and `mahjong/container/pattern/reasoning.py:49-53,109-122`). -/
def subtract (c d : Counter α) : Counter α :=
  d.foldl (fun c e => c.set e.1 (c.get (view e.1) - e.2)) c

/-- `Counter.__iadd__` (`Counter` as used by `mahjong/container/set.py:10-73` and `mahjong/container/pattern/reasoning.py:49-53,109-122`). -/
def iadd (c d : Counter α) : Counter α := keepPositive (addLoop c d)

/-- `Counter.__isub__` (`Counter` as used by `mahjong/container/set.py:10-73` and `mahjong/container/pattern/reasoning.py:49-53,109-122`). -/
def isub (c d : Counter α) : Counter α := keepPositive (subtract c d)

/-- the loop of `Counter.__and__`: minimum of counts, only positive ones, in the order of `c`
    (`Counter` as used by `mahjong/container/set.py:10-73` and `mahjong/container/pattern/reasoning.py:49-53,109-122`). -/
def and (c d : Counter α) : Counter α :=
  c.filterMap (fun e =>
    let m := if e.2 < d.get (view e.1) then e.2 else d.get (view e.1)
    if 0 < m then some (e.1, m) else none)

/-- `Counter.__or__`: first the keys of `c` with the larger count, then the keys of `d` not in `c`
    (`Counter` as used by `mahjong/container/set.py:10-73` and `mahjong/container/pattern/reasoning.py:49-53,109-122`). -/
def or (c d : Counter α) : Counter α :=
  c.filterMap (fun e =>
    let m := if e.2 < d.get (view e.1) then d.get (view e.1) else e.2
    if 0 < m then some (e.1, m) else none)
  ++ d.filter (fun e => !(c.has (view e.1)) && decide (0 < e.2))

/-- `-counter` (`Counter.__neg__`): negated negative counts only
    (`Counter` as used by `mahjong/container/set.py:10-73` and `mahjong/container/pattern/reasoning.py:49-53,109-122`). -/
def neg (c : Counter α) : Counter α :=
  c.filterMap (fun e => if e.2 < 0 then some (e.1, 0 - e.2) else none)

/-- `+counter` (`Counter.__pos__`): positive counts only
    (`Counter` as used by `mahjong/container/set.py:10-73` and `mahjong/container/pattern/reasoning.py:49-53,109-122`). -/
def pos (c : Counter α) : Counter α := c.filter (fun e => decide (0 < e.2))

/-- `dict.update(mapping)`: plain assignment of every entry
    (`Counter` as used by `mahjong/container/set.py:10-73` and `mahjong/container/pattern/reasoning.py:49-53,109-122`). -/
def assignLoop (c d : Counter α) : Counter α :=
  d.foldl (fun c e => c.set e.1 e.2) c

/-- the adding branch of `Counter.update(mapping)`: `self[elem] = count + self.get(elem, 0)`
    (`Counter` as used by `mahjong/container/set.py:10-73` and `mahjong/container/pattern/reasoning.py:49-53,109-122`). -/
def update (c d : Counter α) : Counter α :=
  if c.total ≠ 0 then addLoop c d else assignLoop c d

/-- `list(counter.elements())`: each key repeated `count` times, in order
    (`Counter` as used by `mahjong/container/set.py:10-73` and `mahjong/container/pattern/reasoning.py:49-53,109-122`). -/
def elements (c : Counter α) : List α := c.flatMap (fun e => List.replicate e.2.toNat e.1)

/-- `Counter.__add__`: entries of `c` with the sums, then the keys of `d` not in `c`; positive counts only
    (`Counter` as used by `mahjong/container/set.py:10-73` and `mahjong/container/pattern/reasoning.py:49-53,109-122`). -/
def plus (c d : Counter α) : Counter α :=
  (c.map (fun e => (e.1, e.2 + d.get (view e.1)))).filter (fun e => decide (0 < e.2))
  ++ d.filter (fun e => !(c.has (view e.1)) && decide (0 < e.2))

/-- `Counter.__sub__`: entries of `c` with the differences, then the negative entries of `d` not in `c`,
    negated; positive counts only
    (`Counter` as used by `mahjong/container/set.py:10-73` and `mahjong/container/pattern/reasoning.py:49-53,109-122`). -/
def minus (c d : Counter α) : Counter α :=
  (c.map (fun e => (e.1, e.2 - d.get (view e.1)))).filter (fun e => decide (0 < e.2))
  ++ (d.filter (fun e => !(c.has (view e.1)) && decide (e.2 < 0))).map (fun e => (e.1, 0 - e.2))

/-- What CPython guarantees for every dict: no two keys are `==`
    (`Counter` as used by `mahjong/container/set.py:10-73` and `mahjong/container/pattern/reasoning.py:49-53,109-122`). -/
def WF (c : Counter α) : Prop := (keys c).Nodup

/-- whether a counter is well-formed can be decided (no Python code; for the counters of `mahjong/container/set.py:10-73`) -/
instance (c : Counter α) : Decidable (WF c) := inferInstanceAs (Decidable (List.Nodup _))

end Counter
end Verif.Py
