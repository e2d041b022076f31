import Verif.Model.DictStore

/-!
Calls that would change a `TransferDict` in place (`mahjong/record/universe/executor.py:162-163,177-180`).

Not modelled: assigning to an attribute (`d.nested_dict = ...`) and reaching into the attribute (`d.nested_dict[k] = v`).
-/
namespace Verif.Model
open Verif.Py

/-- a call by which a dictionary is changed in place (`mahjong/record/universe/executor.py:162-163,180`) -/
inductive DictCall where
  /-- `d[k] = v` -/
  | setItem (k : Key) (a : DArg)
  /-- `del d[k]` -/
  | delItem (k : Key)
  /-- `del d.name` -/
  | delAttr (name : Str)
  /-- `d.pop(k)` -/
  | pop (k : Key)
  /-- `d.popitem()` -/
  | popItem
  /-- `d.update({...})` -/
  | update (entries : List (Key × DArg))
  /-- `d.clear()` -/
  | clear

/-- `_readonly` (`mahjong/record/universe/executor.py:177-178`): `NotImplemented` is not an exception, so `raise` raises `TypeError`. -/
def readonly (h : DStore) : Except PyErr Unit × DStore := (.error .typeError, h)

/-- The call on the object `r`.  `__setitem__`, `__delattr__`, `pop`, `update` and `popitem` are `_readonly`
    (`mahjong/record/universe/executor.py:180`).  The class has no `__delitem__`, and `del d[k]` does not ask `__getattr__`: `TypeError`.
    `clear` is not among them: `__getattr__` finds the one of `nested_dict` (`mahjong/record/universe/executor.py:162-163`). -/
def dictCall (r : Nat) : DictCall → DStore → Except PyErr Unit × DStore
  | .setItem _ _, h => readonly h
  | .delItem _, h => (.error .typeError, h)
  | .delAttr _, h => readonly h
  | .pop _, h => readonly h
  | .popItem, h => readonly h
  | .update _, h => readonly h
  | .clear, h =>
    match h[r]? with
    | none => (.ok (), h)
    | some o => (.ok (), h.set r ⟨o.parent, []⟩)

end Verif.Model
