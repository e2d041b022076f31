import Verif.Spec.FairGame
import Verif.Spec.Page
import Verif.Spec.Float
import Mathlib.Data.Set.Card

/-! What a row of the page should say about a discard, in terms of the game alone. -/
namespace Verif.Spec
open Verif.Py Verif.Model Verif.Spec.Html

/-- how many tiles of kind `k` the player `p` holds after the moves -/
noncomputable def handKinds (p : Fin 4) (game : List Move) (k : Kind) : Int := ({n : Int | Held p n game ∧ CopyOf n k}.ncard : Nat)

/-- The player `p` has not seen tile `n`: it is not held, was not shown by a move, and is not the first dora indicator.
    With three players the tiles before number 36 do not count, although 1m and 9m take part (see C33). -/
def Unseen (p : Fin 4) (four : Bool) (game : List Move) (n : Int) : Prop :=
  ((if four then 0 else 36) ≤ n ∧ n < 136) ∧ ¬ Held p n game ∧ (∀ m ∈ game, ¬ ShowsButZero n m) ∧
  ∀ seed hands more, Move.deal seed hands more ∈ game → some n ≠ seed.getLast?

/-- how many unseen tiles are copies of the useful kinds -/
noncomputable def unseenCopies (p : Fin 4) (four : Bool) (game : List Move) (useful : Kind → Prop) : Nat :=
  {n : Int | Unseen p four game n ∧ ∃ u, useful u ∧ CopyOf n u}.ncard

/-- how many tiles count as unseen: with three players also the eight tiles 1m and 9m, seen or not -/
noncomputable def unseenCount (p : Fin 4) (four : Bool) (game : List Move) : Nat :=
  {n : Int | Unseen p four game n}.ncard + if four then 0 else 8

/-- the win types looked at: four melds and a pair, of which so many melds are called already, and seven pairs if none is -/
def winsFor (p : Fin 4) (game : List Move) : List Pattern := checkedWins (meldCount (finalMelds (meldsOf p game)))

/-- the waiting step of the hand: the least over the win types -/
def HandStep (p : Fin 4) (game : List Move) (n : Int) : Prop :=
  (∃ w ∈ winsFor p game, IsStep true w (handKinds p game) n) ∧ ∀ w ∈ winsFor p game, ∀ m, IsStep true w (handKinds p game) m → n ≤ m

/-- the waiting step after discarding a tile of kind `k` -/
def StepAfter (p : Fin 4) (game : List Move) (k : Kind) (n : Int) : Prop :=
  (∃ w ∈ winsFor p game, IsStep true w (minus (handKinds p game) k) n) ∧
  ∀ w ∈ winsFor p game, ∀ m, IsStep true w (minus (handKinds p game) k) m → n ≤ m

/-- drawing a `u` after discarding a `k` lowers the waiting step `n` -/
def UsefulAfter (p : Fin 4) (game : List Move) (k : Kind) (n : Int) (u : Kind) : Prop :=
  ∃ w ∈ winsFor p game, IsStep true w (minus (handKinds p game) k) n ∧ UsefulKind w (minus (handKinds p game) k) u

/-- the name of a kind, such as `5p` -/
def kindName (k : Kind) : Str := pyStrInt k.2 ++ [k.1.letter]

/-- the name of a tile number: red fives are `0m`, `0p` and `0s` -/
def numberName (n : Int) : Str :=
  if n = 16 then "0m".toList else if n = 52 then "0p".toList else if n = 88 then "0s".toList
  else ((allKinds[(n / 4).toNat]?).map kindName).getD []

/-- none of the tiles held is a red five -/
def NoRedHeld (p : Fin 4) (game : List Move) : Prop := ∀ n, Held p n game → n ≠ 16 ∧ n ≠ 52 ∧ n ≠ 88

/-- the red five of kind `k` is held -/
def RedHeld (p : Fin 4) (game : List Move) (k : Kind) : Prop := ∃ n, Held p n game ∧ IsRed n k

/-- `name` stands for a tile of kind `k`: it is the name of the kind, or that of the red five, if it is held -/
def Names (p : Fin 4) (game : List Move) (k : Kind) (name : Str) : Prop :=
  name = kindName k ∨ ∃ n, Held p n game ∧ IsRed n k ∧ name = numberName n

/-- steps and tiles, as written in a row -/
def stepsText (n : Int) (c : Nat) : List Str := ["Steps".toList, pyStrInt n, "Tiles".toList, pyStrInt c]

/-- the background of a row with wrong rate `rate`: blue if a riichi was declared before, and otherwise red -/
def RowStyle (float : Rat → Str) (game : List Move) (rate : Rat) (style : Str) : Prop :=
  ((∃ m ∈ game, m.event.tag = "REACH".toList) →
    style = "background-color: ".toList ++ " rgba(0, 0, 255, ".toList ++ float rate ++ ");".toList) ∧
  ((¬ ∃ m ∈ game, m.event.tag = "REACH".toList) →
    style = "background-color: ".toList ++ " rgba(255, 0, 0, ".toList ++ float rate ++ ");".toList)

/-- What row `index` says about discarding tile `t` after the moves `game`.
    * Its number counts the discards from 1.
    * It is coloured blue if a riichi was declared before, and otherwise red, with the wrong rate as strength.  That is
      `1 - c / d` up to rounding, for `c` useful tiles after the discard and `d` after the best one, and `1 - c / (d * u)`
      if the discard raises the waiting step while `u` tiles are unseen.
    * It shows the tiles of the melds and then the hand in order, with the right number of tiles of every kind.
    * It shows the tile discarded.
    * `Expected` is the waiting step of the hand; `Actual` that after the discard, which is the same or one more.
      The number of tiles is that of the unseen tiles that are useful, unless a five of which the red one is held is useful. -/
structure RowOf (float : Rat → Str) (p : Fin 4) (four : Bool) (game : List Move) (t : Nat) (index : Nat) (row : ShownRow) : Prop where
  number : row.number = natDigits (index + 1)
  hand : ∃ tiles : List Tile,
    row.hand = tilePictures "big" ((finalMelds (meldsOf p game)).flatMap
      (fun m => (m.selfTiles ++ m.borrowedTiles).map numberName) ++ tiles.map Tile.str) ∧
    tiles.Pairwise (fun a b => ¬ Kind.lt b.view a.view) ∧ (∀ k, ((tiles.map Tile.view).count k : Int) = handKinds p game k) ∧
    (∀ x ∈ tiles, x.aka = true → RedHeld p game x.view)
  choice : row.choice = tilePictures "big" [numberName t]
  summary : ∃ (k : Kind) (n e : Int) (c d : Nat) (rate q : Rat), CopyOf t k ∧
    row.summary = [["Expected".toList], stepsText e d, ["Actual".toList], stepsText n c] ∧
    HandStep p game e ∧ StepAfter p game k n ∧ (n = e ∨ n = e + 1) ∧
    ((∀ u, UsefulAfter p game k n u → ¬ RedHeld p game u) → c = unseenCopies p four game (UsefulAfter p game k n)) ∧
    RowStyle float game rate row.style ∧ rate ≤ 1 ∧ d ≠ 0 ∧
    NearestDouble ((c : Rat) / ((d : Rat) * (if n = e then 1 else (unseenCount p four game : Rat)))) q ∧ NearestDouble (1 - q) rate

/-- discarding a `k` keeps the waiting step `e` -/
def Keeps (p : Fin 4) (game : List Move) (e : Int) (k : Kind) : Prop := 0 < handKinds p game k ∧ StepAfter p game k e

/-- no five of which the red one is held is useful after a discard that keeps the waiting step -/
def NoRedUseful (p : Fin 4) (game : List Move) : Prop :=
  ∀ e, HandStep p game e → ∀ k, Keeps p game e k → ∀ u, UsefulAfter p game k e u → ¬ RedHeld p game u

/-- nor after one that raises it -/
def NoRedEver (p : Fin 4) (game : List Move) : Prop :=
  ∀ k n, 0 < handKinds p game k → StepAfter p game k n → ∀ u, UsefulAfter p game k n u → ¬ RedHeld p game u

/-- The row compares the discards `listed`, which keep the waiting step `e`, for a hand as in `NoRedUseful`.
    It recommends those that leave the most useful tiles, `d` many.
    The list below the row has one item for each, the one with the most useful tiles first; it names the discard, the step,
    the number of useful tiles and their kinds. -/
structure AdviceOn (p : Fin 4) (four : Bool) (game : List Move) (row : ShownRow) (e : Int) (listed : Kind → Prop) : Prop where
  expected : ∃ (d : Nat) (ks : List Kind) (names : List Str), ks ≠ [] ∧ ks.Nodup ∧ List.Forall₂ (Names p game) ks names ∧
    row.expected = tilePictures "big" names ∧ row.summary[1]? = some (stepsText e d) ∧
    ∀ k, k ∈ ks ↔ listed k ∧ unseenCopies p four game (UsefulAfter p game k e) = d ∧
      ∀ j, listed j → unseenCopies p four game (UsefulAfter p game j e) ≤ d
  items : ∃ ks : List Kind, ks.Nodup ∧ (∀ k, k ∈ ks ↔ listed k) ∧
    ks.Pairwise (fun a b => unseenCopies p four game (UsefulAfter p game b e) ≤ unseenCopies p four game (UsefulAfter p game a e)) ∧
    List.Forall₂ (fun k item => ∃ (name : Str) (us : List Kind), Names p game k name ∧ us.Pairwise (fun a b => Kind.lt a b) ∧ (∀ u, u ∈ us ↔ UsefulAfter p game k e u) ∧
      item = (⟨tilePictures "small" [name], ("Discard".toList ++ [Char.ofNat 160]) ::
        stepsText e (unseenCopies p four game (UsefulAfter p game k e)), tilePictures "small" (us.map kindName)⟩ : ShownItem)) ks row.items

/-- What a row should recommend: it compares all discards that keep the waiting step of the hand.
    The wrong rate is 0 if the discard is among those recommended, and not negative for a hand as in `NoRedEver`. -/
structure AdviceOf (float : Rat → Str) (p : Fin 4) (four : Bool) (game : List Move) (row : ShownRow) : Prop where
  advice : ∃ e, HandStep p game e ∧ AdviceOn p four game row e (Keeps p game e)
  rate : ∃ rate : Rat, (NoRedEver p game → 0 ≤ rate) ∧ rate ≤ 1 ∧ RowStyle float game rate row.style ∧ ((∀ x ∈ row.choice, x ∈ row.expected) → rate = 0)

/-- the hand is nearer to four melds and a pair than to seven pairs -/
def NearerMelds (p : Fin 4) (game : List Move) : Prop :=
  ∃ n m, IsStep true (.normal 1 4) (handKinds p game) n ∧ IsStep true (.unique 7 []) (handKinds p game) m ∧ n < m

/-- how many kinds of the hand can be discarded without raising the waiting step for seven pairs -/
noncomputable def pairKeepers (p : Fin 4) (game : List Move) : Nat :=
  {k : Kind | 0 < handKinds p game k ∧ ∃ n, IsStep true (.unique 7 []) (handKinds p game) n ∧
    IsStep true (.unique 7 []) (minus (handKinds p game) k) n}.ncard

/-- What a row recommends to a player without called melds: it compares only some of the discards that keep the waiting step, if
    there are more of them than of those that keep the step for seven pairs. -/
structure PartAdviceOf (float : Rat → Str) (p : Fin 4) (four : Bool) (game : List Move) (row : ShownRow) : Prop where
  advice : ∃ e listed, HandStep p game e ∧ (∀ k, listed k → Keeps p game e k) ∧
    {k : Kind | listed k}.ncard = min {k : Kind | Keeps p game e k}.ncard (pairKeepers p game) ∧ AdviceOn p four game row e listed
  rate : ∃ rate : Rat, rate ≤ 1 ∧ RowStyle float game rate row.style ∧ ((∀ x ∈ row.choice, x ∈ row.expected) → rate = 0)

end Verif.Spec
