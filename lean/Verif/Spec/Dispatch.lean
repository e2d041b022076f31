import Verif.Model.Dispatch

/-! Which handlers are asked for an event, read off the list of registrations. -/
namespace Verif.Spec
open Verif.Py Verif.Model

variable {σ γ : Type}

/-- handlers registered for a tag, in the order of registration (a name given twice counts twice) -/
def forTag (regs : List (Reg σ γ)) (tag : Str) : List (Handler σ γ) :=
  regs.flatMap (fun | .name n f => if n = tag then [f] else []
                    | .names ns f => List.replicate (ns.count tag) f
                    | _ => [])

/-- handlers registered for an attribute -/
def forAttr (regs : List (Reg σ γ)) (a : Str) : List (Handler σ γ) :=
  regs.flatMap (fun | .attr a' f => if a' = a then [f] else []
                    | _ => [])

/-- handlers registered for the combination `match_both(name=n, attr=a)` -/
def forBoth (regs : List (Reg σ γ)) (n a : Str) : List (Handler σ γ) :=
  regs.flatMap (fun | .both n' a' f => if n' = n ∧ a' = a then [f] else []
                    | _ => [])

/-- handlers of last resort -/
def forAny (regs : List (Reg σ γ)) : List (Handler σ γ) :=
  regs.flatMap (fun | .dflt f => [f]
                    | _ => [])

/-- Ask the handlers one after the other, each with the state the one before left, until one gives commands or
    raises. -/
inductive Asked (e : Event) : List (Handler σ γ) → σ → Except PyErr (σ × List γ) → Prop
  | none (s : σ) : Asked e [] s (.ok (s, []))
  | raised {f : Handler σ γ} {fs : List (Handler σ γ)} {s : σ} {x : PyErr} :
      f s e = .error x → Asked e (f :: fs) s (.error x)
  | gave {f : Handler σ γ} {fs : List (Handler σ γ)} {s s' : σ} {c : γ} {cs : List γ} :
      f s e = .ok (s', c :: cs) → Asked e (f :: fs) s (.ok (s', c :: cs))
  | passed {f : Handler σ γ} {fs : List (Handler σ γ)} {s s' : σ} {r : Except PyErr (σ × List γ)} :
      f s e = .ok (s', []) → Asked e fs s' r → Asked e (f :: fs) s r

end Verif.Spec
