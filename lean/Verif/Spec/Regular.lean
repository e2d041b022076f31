import Verif.Spec.Translate
import Verif.Spec.Strict
import Verif.Spec.Number
import Verif.Spec.Frame

/-!
What a regular record looks like, in terms of its elements and their attributes: the settings, then rounds, each a deal,
moves a player can make and elements that end the round.
-/
namespace Verif.Spec
open Verif.Py Verif.Model

/-- numbers separated by commas, `k` of them or more -/
def ListsNumbers (k : Nat) (s : Str) : Prop :=
  ∃ (ts : List Str) (qs : List ℚ), ts ≠ [] ∧ (∀ t ∈ ts, ',' ∉ t) ∧ List.Forall₂ NumberText ts qs ∧ k ≤ ts.length ∧ s = joinWith ',' ts

/-- an element that may stand anywhere: one of unknown name, the seed of the wall, the players (ranks from 0 to 20, ratings
    and sexes of four players, as far as they are given), or a player who leaves -/
inductive Harmless : Event → Prop
  | unknown (e : Event) (h : Unknown e) : Harmless e
  | shuffle (e : Event) (h : e.tag = "SHUFFLE".toList) (seed : Str) (hs : e.get "seed".toList = .ok seed) : Harmless e
  | players (e : Event) (h : e.tag = "UN".toList)
      (dan : ∀ s, e.attrib.lookup "dan".toList = some s →
        ∃ l : List Int, 4 ≤ l.length ∧ (∀ d ∈ l, 0 ≤ d ∧ d ≤ 20) ∧ s = commaList l)
      (rate : ∀ s, e.attrib.lookup "rate".toList = some s → ListsNumbers 4 s)
      (sx : ∀ s, e.attrib.lookup "sx".toList = some s → 3 ≤ s.count ',') : Harmless e
  | bye (e : Event) (h : e.tag = "BYE".toList) (p : Nat) (hp : p < 4) (hw : Who p e) : Harmless e

/-- an element that may stand after the settings: also the one that names the first dealer -/
inductive AtTable : Event → Prop
  | harmless (e : Event) (h : Harmless e) : AtTable e
  | start (e : Event) (h : e.tag = "TAIKYOKU".toList) (oya : Nat) (ho : e.get "oya".toList = .ok (natDigits oya)) : AtTable e

/-- an element of a round of `n` players that is no move: also a riichi -/
inductive Aside (n : Nat) : Event → Prop
  | atTable (e : Event) (h : AtTable e) : Aside n e
  | riichi (e : Event) (h : e.tag = "REACH".toList) (p : Nat) (hp : p < n) (hw : Who p e) (step : Str)
      (hs : e.get "step".toList = .ok step) : Aside n e

/-- if the record ends here, the final scores and points of `n` players are given -/
def FinalScores (n : Nat) (e : Event) : Prop := ∀ s, e.attrib.lookup "owari".toList = some s → ListsNumbers (2 * n) s

/-- tile numbers separated by commas, at least one -/
def ListsTiles (l : List Int) (s : Str) : Prop := l ≠ [] ∧ (∀ t ∈ l, IsTile t) ∧ s = commaList l

/-- an element that ends a round of `n` players -/
inductive Ends (n : Nat) : Event → Prop
  /-- a win: who wins from whom, the scores and how they change, the winning hand, which holds the tile won on, and the yaku,
      ordinary or yakuman, by their numbers from 0 to 54 -/
  | win (e : Event) (h : e.tag = "AGARI".toList) (who giver : Nat) (hw : who < n)
      (h1 : e.get "who".toList = .ok (natDigits who)) (h2 : e.get "fromWho".toList = .ok (natDigits giver))
      (sc : Str) (h3 : e.get "sc".toList = .ok sc) (h4 : ListsNumbers (2 * n) sc)
      (hai : List Int) (s : Str) (h5 : e.get "hai".toList = .ok s) (h6 : ListsTiles hai s)
      (h7 : who ≠ giver → ∃ t ts s', e.get "machi".toList = .ok s' ∧ ListsTiles (t :: ts) s' ∧ t ∈ hai)
      (yaku : List Int) (hy : yaku ≠ []) (hr : ∀ y ∈ yaku, 0 ≤ y ∧ y < 55)
      (h8 : e.attrib.lookup "yaku".toList = some (commaList yaku) ∨
        e.attrib.lookup "yaku".toList = none ∧ e.attrib.lookup "yakuman".toList = some (commaList yaku))
      (h9 : FinalScores n e) : Ends n e
  /-- nobody wins: perhaps for one of the six known reasons, perhaps with scores -/
  | drawn (e : Event) (h : e.tag = "RYUUKYOKU".toList)
      (h1 : ∀ s, e.attrib.lookup "type".toList = some s → ∃ r ∈ drawnReasons, s = r.1.toList)
      (h2 : ∀ s, e.attrib.lookup "sc".toList = some s → ListsNumbers (2 * n) s)
      (h3 : FinalScores n e) : Ends n e

/-- a move of a round of `n` players: who moves is one of them, and all tiles are tiles -/
def MoveAmong (n : Nat) : Move → Prop
  | .deal .. => False
  | .draw q t => q.val < n ∧ t < 136
  | .discard q t => q.val < n ∧ t < 136
  | .meld q c => q.val < n ∧ ∃ m, meldOf q.val c = .ok m ∧ (∀ t ∈ m.selfTiles, IsTile t) ∧ ∀ t ∈ m.borrowedTiles, IsTile t
  | .dora t => t < 136
  | .other e => Quiet e ∧ Aside n e

/-- the elements of a round: its deal, moves that are consistent with what the players hold, and its end -/
inductive Round (n winds : Nat) : List Event → Prop
  | mk (seed : List Int) (hands : Fin 4 → List Int) (more : List (Str × Str)) (ms : List Move) (tail : List Event)
      (number : Nat) (others : List Int) (indicator : Int)
      (hs : seed = (number : Int) :: others ++ [indicator]) (h2 : 2 ≤ others.length)
      (hn : number < 4 * (winds + 1)) (hi : IsTile indicator)
      (oya : Nat) (ho : more.lookup "oya".toList = some (natDigits oya))
      (ten : Str) (ht : more.lookup "ten".toList = some ten) (hl : ListsNumbers n ten)
      (hh : ∀ p : Fin 4, p.val < n → hands p ≠ [] ∧ (hands p).Nodup ∧ (∀ t ∈ hands p, IsTile t) ∧
        Consistent p (.deal seed hands more :: ms))
      (hm : ∀ m ∈ ms, MoveAmong n m) (he : ∀ e ∈ tail, Ends n e ∨ Aside n e) :
      Round n winds ((Move.deal seed hands more :: ms).map Move.event ++ tail)

/-- how many players a record of this type has (bit 4), and how many winds are played (bit 3) -/
def playersOf (v : Nat) : Nat := if v / 16 % 2 = 1 then 3 else 4
def windsOf (v : Nat) : Nat := if v / 8 % 2 = 1 then 2 else 1

/-- a record in its parts: elements that may stand anywhere, the type of the game (a number below 65536), elements that may
    stand after it, and rounds.  Seats are 0 to 3. -/
structure Parts (events before : List Event) (go : Event) (header : List Event) (rounds : List (List Event)) (v : Nat) : Prop where
  all : events = before ++ go :: header ++ rounds.flatten
  seats : ∀ e ∈ events, Seated e
  before : ∀ e ∈ before, Harmless e
  go : go.tag = "GO".toList ∧ v ≤ 65535 ∧ go.get "type".toList = .ok (natDigits v)
  header : ∀ e ∈ header, AtTable e
  rounds : ∀ r ∈ rounds, Round (playersOf v) (windsOf v) r

/-- a regular record, as far as it goes -/
def Regular (events : List Event) : Prop := ∃ before go header rounds v, Parts events before go header rounds v

/-- a complete record in its parts: the first element `UN` before the first round gives names, ranks, ratings and sexes, every
    round ends, and the last element of all gives the final scores -/
structure CompleteAs (events before : List Event) (go : Event) (header : List Event) (rounds : List (List Event)) (v : Nat) : Prop where
  parts : Parts events before go header rounds v
  names : ∃ a un b, before ++ header = a ++ un :: b ∧ (∀ e ∈ a, e.tag ≠ "UN".toList) ∧ un.tag = "UN".toList ∧
    (∀ name ∈ ["n0", "n1", "n2", "n3", "sx"], ∃ s, un.attrib.lookup name.toList = some s) ∧
    ∀ name ∈ ["dan", "rate"], ∃ s, un.attrib.lookup name.toList = some s
  ends : ∀ r ∈ rounds, ∃ e ∈ r, e.tag = "AGARI".toList ∨ e.tag = "RYUUKYOKU".toList
  final : ∃ front last s, events = front ++ [last] ∧ last.attrib.lookup "owari".toList = some s ∧ ListsNumbers 1 s

/-- a complete record -/
def Complete (events : List Event) : Prop := ∃ before go header rounds v, CompleteAs events before go header rounds v

end Verif.Spec
