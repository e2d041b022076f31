import Verif.Proofs.CompleteCheck
import Verif.Model.Document
import Verif.Model.Paifu
import Verif.Model.Translate
import Verif.Model.Executor

/-! What is computed about the records of the repository's tests. -/
namespace Verif.Conform
open Verif.Py Verif.Model Verif.Spec Verif.Proofs

/-- for a text given as a string literal: its letters are those of the literal -/
theorem on_letters {α : Type} (f : Str → α) {l : Str} {b : α} (h : f l = b) : f (String.ofList l).toList = b := by
  rw [String.toList_ofList]; exact h

/-- the text is a document, its elements are a complete record, and its players keep to the rules -/
def checked (t : Str) : Bool :=
  match xmlParse t with
  | some root => completeB (eventsOf root) && fairRecordB (eventsOf root)
  | none => false

/-- the record is converted and the commands are replayed in strict mode, more than one each -/
def convertedStrictly (t : Str) : Bool :=
  match recordOfText t with
  | some (.ok r) => (match (toCommands (fun c _ => c) true {} r.events).2 with
    | .ok cs => decide (1 < cs.length) && (execute true cs).2.isNone && decide (1 < (execute true cs).1.length)
    | .error _ => false)
  | _ => false

/-- how many rows the events of each game have, how many the record has, and how many the first event of the first game has -/
def rowCounts (t : Str) : Option (List Nat × Nat × Option Nat) :=
  match recordOfText t with
  | some (.ok r) =>
    match r.games.mapM (fun g => g.events.mapM (fun e => eventRows id e.ev)), r.rows id with
    | .ok rs, .ok l => some (rs.map (fun r => r.flatten.length), l.length, (rs.head?.bind List.head?).map List.length)
    | _, _ => none
  | _ => none

end Verif.Conform
