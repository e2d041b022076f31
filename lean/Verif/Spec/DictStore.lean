import Verif.Model.DictStore
import Verif.Spec.Command

/-! What a `TransferDict` object stands for. -/
namespace Verif.Spec
open Verif.Py Verif.Model

mutual
/-- The entry under `k` of the object `self` stands for a tree: a value, or an object whose parent is `self` under that key and whose
    entries stand for the tree's. -/
def SlotIs (h : DStore) (self : Nat) (k : Key) : Slot → Tree → Prop
  | s, .leaf v => s = .val v
  | s, .node kids => ∃ r o, s = .ref r ∧ self < r ∧ h[r]? = some o ∧ o.parent = some (self, k) ∧ KidsAre h r o.entries kids
/-- The entries of the object `self` stand for these entries, in this order. -/
def KidsAre (h : DStore) (self : Nat) : List (Key × Slot) → List (Key × Tree) → Prop
  | es, [] => es = []
  | es, (k, t) :: kids => ∃ s es', es = (k, s) :: es' ∧ SlotIs h self k s t ∧ KidsAre h self es' kids
end

/-- The object `r` has this parent and stands for a dictionary with these entries. -/
def ObjIs (h : DStore) (r : Nat) (parent : Option (Nat × Key)) (kids : List (Key × Tree)) : Prop :=
  ∃ o, h[r]? = some o ∧ o.parent = parent ∧ KidsAre h r o.entries kids

/-- The object `r` stands for a dictionary inside others: following the parents, one meets objects that stand for these. -/
def DictIs (h : DStore) : Nat → List (Key × Tree) → List (List (Key × Tree) × Key) → Prop
  | r, kids, [] => ObjIs h r none kids
  | r, kids, (up, key) :: ps => ∃ p, ObjIs h r (some (p, key)) kids ∧ DictIs h p up ps

/-- An argument of the constructor stands for a tree. -/
def ArgIs (h : DStore) : DArg → Tree → Prop
  | .plain t', t => t' = t
  | .ref r, t => ∃ parent kids, t = .node kids ∧ ObjIs h r parent kids

/-- The call returns this: with enough fuel the model answers it. -/
def Returns {α : Type} (call : Nat → Nat → Option α) (x : α) : Prop := ∃ enough, ∀ fuel up, enough ≤ fuel → enough ≤ up → call fuel up = some x

/-- Writes one after the other, each through the root returned by the one before: `root = root[k1]...[kn].set(k, v)`. -/
inductive WritesRun : DStore → Nat → List Write → DStore → Nat → Prop
  | nil (h : DStore) (r : Nat) : WritesRun h r [] h r
  | cons {h h1 h2 : DStore} {r d r1 r2 : Nat} {w : Write} {ws : List Write} (hd : dictWalk r w.path h = some d)
      (hs : Returns (fun fuel up => setRun fuel up d w.key (.plain (.leaf w.value)) h) (r1, h1)) (hr : WritesRun h1 r1 ws h2 r2) :
      WritesRun h r (w :: ws) h2 r2

end Verif.Spec
