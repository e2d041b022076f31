import Mathlib.Data.List.Forall2
import Verif.Model.Heap

/-! What a variable holds, list objects read through. -/
namespace Verif.Spec
open Verif.Model Verif.Py

mutual
/-- the variable `x` holds the value `v` -/
inductive Holds (h : Heap) : HVal → Val → Prop
  | atom {v} : (∀ l, v ≠ .list l) → Holds h (.atom v) v
  | ref {r items vs} : h[r]? = some items → HoldAll h items vs → Holds h (.ref r) (.list vs)
/-- item by item -/
inductive HoldAll (h : Heap) : List HVal → List Val → Prop
  | nil : HoldAll h [] []
  | cons {x v xs vs} : Holds h x v → HoldAll h xs vs → HoldAll h (x :: xs) (v :: vs)
end

/-- lists are made of lists that are there already -/
def Built (h : Heap) : Prop := ∀ r items, h[r]? = some items → ∀ s, HVal.ref s ∈ items → s < r

/-- a command with its value read through -/
def SameCmd (h : Heap) (a : HCmd) (c : Cmd) : Prop := a.prop = c.prop ∧ a.update = c.update ∧ a.sub = c.sub ∧ a.timestamp = c.timestamp ∧
  Holds h a.value c.value

/-- the variables of an interpreter, read through -/
def HoldState (h : Heap) (s : HState) (t : IState) : Prop := List.Forall₂ (fun a b => a.1 = b.1 ∧ Holds h a.2 b.2) s t

/-- the commands interpreted one after the other on values: what each gives and the state after it -/
def valueRun (s : IState) : List Cmd → List (Val × IState) × Option PyErr
  | [] => ([], none)
  | c :: cs =>
    match interpret s c with
    | .error x => ([], some x)
    | .ok (v, s1) => ((v, s1) :: (valueRun s1 cs).1, (valueRun s1 cs).2)

mutual
/-- a dictionary, its values read through -/
inductive HoldTree (h : Heap) : HTree → Tree → Prop
  | leaf {x v} : Holds h x v → HoldTree h (.leaf x) (.leaf v)
  | node {ks ls} : HoldKids h ks ls → HoldTree h (.node ks) (.node ls)
inductive HoldKids (h : Heap) : List (Key × HTree) → List (Key × Tree) → Prop
  | nil : HoldKids h [] []
  | cons {k x t ks ls} : HoldTree h x t → HoldKids h ks ls → HoldKids h ((k, x) :: ks) ((k, t) :: ls)
end

/-- a `TransferDict` with the dictionaries around it, its values read through -/
def HoldTD (h : Heap) (a : HTD) (d : TD) : Prop :=
  HoldKids h a.kids d.kids ∧ List.Forall₂ (fun p q => HoldKids h p.1 q.1 ∧ p.2 = q.2) a.parents d.parents

mutual
/-- a state, its sets and lists read through -/
inductive Shown (b : Boxes) : OState → GState → Prop
  | hand {p r l} : b[r]? = some (.ints l) → Shown b (.hand p r) (.hand p l)
  | melds {p r l} : b[r]? = some (.melds l) → Shown b (.melds p r) (.melds p l)
  | discards {p r l} : b[r]? = some (.ints l) → Shown b (.discards p r) (.discards p l)
  | dora {r l} : b[r]? = some (.ints l) → Shown b (.dora r) (.dora l)
  | invisible {f r l} : b[r]? = some (.elems l) → Shown b (.invisible f r) (.invisible f l)
  | coll {ns xs ss} : ShownAll b xs ss → Shown b (.coll ns xs) (.coll ns ss)
inductive ShownAll (b : Boxes) : List OState → List GState → Prop
  | nil : ShownAll b [] []
  | cons {x s xs ss} : Shown b x s → ShownAll b xs ss → ShownAll b (x :: xs) (s :: ss)
end

/-- the states after each event, and the exception that ends the run -/
def stateRun (s : GState) : List Event → List GState × Option PyErr
  | [] => ([], none)
  | e :: es =>
    match s.scan e with
    | .error x => ([], some x)
    | .ok t => (t :: (stateRun t es).1, (stateRun t es).2)

end Verif.Spec
