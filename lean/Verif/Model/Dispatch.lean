import Verif.Model.Translate

/-!
The registration and choice of handlers (`mahjong/record/universe/translator.py`,
`mahjong/record/universe/tenhou/xml_macher.py`) for any handlers.

A handler is a function from the interpreter's state (which it may change) and the event to its commands or an
exception; `list(matcher(...))` runs its generator to the end.  A change a handler made before raising is lost here.
-/
namespace Verif.Model
open Verif.Py

/-- `EventTransform` (`translator.py:10`). -/
abbrev Handler (σ γ : Type) := σ → Event → Except PyErr (σ × List γ)

/-- `dict[key].append(func)` of a `defaultdict(list)` (`xml_macher.py:13-15`). -/
def multiAppend {κ β : Type} [DecidableEq κ] : List (κ × List β) → κ → β → List (κ × List β)
  | [], k, f => [(k, [f])]
  | (k', fs) :: rest, k, f => if k' = k then (k', fs ++ [f]) :: rest else (k', fs) :: multiAppend rest k f

/-- `dict[key]` with `key in dict` tested first
    (`mahjong/record/universe/tenhou/xml_macher.py:56-59,64-67,73-76`). -/
def multiGet {κ β : Type} [DecidableEq κ] : List (κ × List β) → κ → Option (List β)
  | [], _ => none
  | (k', fs) :: rest, k => if k' = k then some fs else multiGet rest k

/-- `TenhouCommandTranslator` (`xml_macher.py:10-15`, `translator.py:27-29`) without the interpreter. -/
structure Registry (σ γ : Type) where
  nameMatch : List (Str × List (Handler σ γ)) := []
  attrMatch : List (Str × List (Handler σ γ)) := []
  bothMatch : List ((Str × Str) × List (Handler σ γ)) := []
  defaults : List (Handler σ γ) := []

/-- a use of one of the decorators
    (`mahjong/record/universe/tenhou/xml_macher.py:17-50`, `mahjong/record/universe/translator.py:40-42`) -/
inductive Reg (σ γ : Type) where
  | name (n : Str) (f : Handler σ γ)
  | names (ns : List Str) (f : Handler σ γ)
  | attr (a : Str) (f : Handler σ γ)
  | both (n a : Str) (f : Handler σ γ)
  | dflt (f : Handler σ γ)

/-- `match_name`, `match_names`, `match_attr`, `match_both`, `default_event`
    (`xml_macher.py:17-30,38-50`, `translator.py:39-41`). -/
def Registry.add {σ γ : Type} (r : Registry σ γ) : Reg σ γ → Registry σ γ
  | .name n f => { r with nameMatch := multiAppend r.nameMatch n f }
  | .names ns f => { r with nameMatch := ns.foldl (fun d n => multiAppend d n f) r.nameMatch }
  | .attr a f => { r with attrMatch := multiAppend r.attrMatch a f }
  | .both n a f => { r with bothMatch := multiAppend r.bothMatch (a, n) f }
  | .dflt f => { r with defaults := r.defaults ++ [f] }

/-- a translator after its module-level registrations (`mahjong/record/universe/tenhou/xml_macher.py:11-15,82`) -/
def Registry.ofRegs {σ γ : Type} (l : List (Reg σ γ)) : Registry σ γ := l.foldl Registry.add {}

/-- `fallback_call` (`translator.py:31-35`); an empty list stands for `None`. -/
def fallbackCall {σ γ : Type} (e : Event) : List (Handler σ γ) → σ → Except PyErr (σ × List γ)
  | [], s => .ok (s, [])
  | f :: fs, s =>
    match f s e with
    | .error x => .error x
    | .ok (s1, v) => if v.isEmpty then fallbackCall e fs s1 else .ok (s1, v)

/-- a `for attr in event.attrib:` loop of `translate` (`xml_macher.py:54-62,72-79`). -/
def attrLoop {σ γ κ : Type} [DecidableEq κ] (e : Event) (d : List (κ × List (Handler σ γ))) (key : Str → κ) :
    List Str → σ → Except PyErr (σ × List γ)
  | [], s => .ok (s, [])
  | a :: as, s =>
    match multiGet d (key a) with
    | none => attrLoop e d key as s
    | some fs =>
      match fallbackCall e fs s with
      | .error x => .error x
      | .ok (s1, v) => if v.isEmpty then attrLoop e d key as s1 else .ok (s1, v)

/-- the handlers of the tag (`xml_macher.py:64-70`). -/
def Registry.nameCall {σ γ : Type} (r : Registry σ γ) (e : Event) (s : σ) : Except PyErr (σ × List γ) :=
  match multiGet r.nameMatch e.tag with
  | none => .ok (s, [])
  | some fs => fallbackCall e fs s

/-- `translate` (`xml_macher.py:52-79`). -/
def Registry.translate {σ γ : Type} (r : Registry σ γ) (e : Event) (s : σ) : Except PyErr (σ × List γ) := do
  let (s1, v1) ← attrLoop e r.bothMatch (fun a => (e.tag, a)) (e.attrib.map Prod.fst) s
  if !v1.isEmpty then pure (s1, v1) else
  let (s2, v2) ← r.nameCall e s1
  if !v2.isEmpty then pure (s2, v2) else
  attrLoop e r.attrMatch (fun a => a) (e.attrib.map Prod.fst) s2

/-- the commands `__call__` passes on to `postprocess` (`translator.py:58-65`). -/
def Registry.commands {σ γ : Type} (r : Registry σ γ) (e : Event) (s : σ) : Except PyErr (σ × List γ) := do
  let (s1, v1) ← r.translate e s
  if !v1.isEmpty then pure (s1, v1) else fallbackCall e r.defaults s1

/-- the registrations of `event_definition.py` in the order of the file
    (`:45,55,77,142,159,180,186,220,230,242,297,307,318`). -/
def tenhouRegs : List (Reg Ctx Cmd) :=
  [.dflt drawCommand, .dflt discardCommand, .name "INIT".toList initCommand, .name "N".toList openHandCommand,
   .name "GO".toList goCommand, .name "TAIKYOKU".toList taikyokuCommand, .name "UN".toList unCommand,
   .name "DORA".toList doraCommand, .name "REACH".toList reachCommand, .name "AGARI".toList agariCommand,
   .name "SHUFFLE".toList shuffleCommand, .name "BYE".toList byeCommand, .name "RYUUKYOKU".toList ryuukyokuCommand]

end Verif.Model
