import Verif.Model.Event

/-!
Specification of records as sequences of moves.  `Move.event` writes a move as the XML element a Tenhou
record contains for it.
-/
namespace Verif.Spec
open Verif.Py Verif.Model

/-- What happens in a record, in the players' terms.  Tiles are tile numbers. -/
inductive Move where
  /-- a new deal: the seed list (its last entry is the dora indicator), every player's tiles, and the other attributes.  Where the
      attributes are written in another order than `seed`, `hai0` to `hai3` and the others, `more` lists these names too, to say
      where they stand -/
  | deal (seed : List Int) (hands : Fin 4 → List Int) (more : List (Str × Str))
  | draw (q : Fin 4) (t : Nat)
  | discard (q : Fin 4) (t : Nat)
  /-- a call or kita of player `q` with a meld code -/
  | meld (q : Fin 4) (code : Nat)
  | dora (t : Nat)
  /-- anything else -/
  | other (e : Event)

/-- comma separated decimal numbers -/
def commaList (l : List Int) : Str := joinWith ',' (l.map pyStrInt)

/-- tags of draws and discards: the player's letter followed by the tile number -/
def drawLetter : Fin 4 → Char
  | 0 => 'T' | 1 => 'U' | 2 => 'V' | 3 => 'W'
def discardLetter : Fin 4 → Char
  | 0 => 'D' | 1 => 'E' | 2 => 'F' | 3 => 'G'

/-- the attributes a deal always has -/
def dealtAttrs (seed : List Int) (hands : Fin 4 → List Int) : List (Str × Str) :=
  [("seed".toList, commaList seed), ("hai0".toList, commaList (hands 0)), ("hai1".toList, commaList (hands 1)),
   ("hai2".toList, commaList (hands 2)), ("hai3".toList, commaList (hands 3))]

/-- `given` written among `more`: an attribute `more` has a place for stands there, the rest stand in front -/
def writtenAmong (given more : List (Str × Str)) : List (Str × Str) :=
  given.filter (fun kv => (more.lookup kv.1).isNone) ++ more.map (fun kv => (kv.1, (given.lookup kv.1).getD kv.2))

/-- the XML element of a move -/
def Move.event : Move → Event
  | .deal seed hands more => ⟨"INIT".toList, writtenAmong (dealtAttrs seed hands) more⟩
  | .draw q t => ⟨drawLetter q :: natDigits t, []⟩
  | .discard q t => ⟨discardLetter q :: natDigits t, []⟩
  | .meld q code => ⟨"N".toList, [("who".toList, natDigits q.val), ("m".toList, natDigits code)]⟩
  | .dora t => ⟨"DORA".toList, [("hai".toList, natDigits t)]⟩
  | .other e => e

/-- an element that is none of the moves above: another tag, not a letter of a draw or discard followed by
    a digit -/
def Quiet (e : Event) : Prop :=
  e.tag ≠ "INIT".toList ∧ e.tag ≠ "N".toList ∧ e.tag ≠ "DORA".toList ∧
  ∀ c d r, e.tag = c :: d :: r → c ∈ "TUVWDEFG".toList → ¬ ('0' ≤ d ∧ d ≤ '9')

/-- A legal move: the meld code is decodable, a deal has a seed, and other events are really others. -/
def LegalMove : Move → Prop
  | .deal seed _ _ => seed ≠ []
  | .meld q code => ∃ m, meldOf q.val code = .ok m
  | .other e => Quiet e
  | _ => True

/-- A legal move in a game player `p` takes part in: a deal gives tiles to `p`.  (In a record of three players the fourth is dealt
    none, and `hai3` is empty.) -/
def LegalFor (p : Fin 4) (m : Move) : Prop := LegalMove m ∧ ∀ seed hands more, m = .deal seed hands more → hands p ≠ []

def Move.isDeal : Move → Bool
  | .deal _ _ _ => true
  | _ => false

end Verif.Spec
