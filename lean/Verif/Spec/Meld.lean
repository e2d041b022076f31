/-!
Specification of the Tenhou meld codes: the encoders of the public format description.

Tile numbers: copy `h` (0..3) of kind `k` (0..33) is number `4 * k + h`; kinds 0..8 are characters 1..9,
9..17 circles, 18..26 bamboo, 27..33 honours.  `src` is the relative seat of the player the tile came from.
-/
namespace Verif.Spec

def copyOf (kind h : Int) : Int := 4 * kind + h

/-- the three tiles of the run starting at number `start` (0-based) of suit `suit`, copies `h0 h1 h2` -/
def chiTiles (suit start h0 h1 h2 : Int) : List Int :=
  [copyOf (9 * suit + start) h0, copyOf (9 * suit + start + 1) h1, copyOf (9 * suit + start + 2) h2]

/-- chi: source (2 bits), flag, three copies (2 bits each), 1 spare bit, then (run index) * 3 + called position -/
def chiCode (src suit start h0 h1 h2 called spare : Int) : Int :=
  src + 4 + 8 * h0 + 32 * h1 + 128 * h2 + 512 * spare + 1024 * ((suit * 7 + start) * 3 + called)

/-- the three copies of `kind` other than copy `unused`, in increasing order -/
def ponTiles (kind unused : Int) : List Int :=
  ([0, 1, 2, 3].filter (fun h => decide (h ≠ unused))).map (copyOf kind)

/-- pon: source, 0, flag, 1 spare bit (chakan), unused copy, 2 spare bits, kind * 3 + called position -/
def ponCode (src kind unused called spare spare2 : Int) : Int :=
  src + 8 + 16 * spare + 32 * unused + 128 * spare2 + 512 * (kind * 3 + called)

/-- added kan: source, 0, 0, flag, added copy, 2 spare bits, kind * 3 + called position of the pon -/
def addedKanCode (src kind added called spare2 : Int) : Int :=
  src + 16 + 32 * added + 128 * spare2 + 512 * (kind * 3 + called)

/-- kan: source (0 = concealed), no flag, 2 spare bits, then the tile number of the named copy -/
def kanCode (src kind copy spare2 : Int) : Int := src + 64 * spare2 + 256 * copyOf kind copy

/-- kita: source, flag nuki, 2 spare bits, tile number -/
def kitaCode (src tile spare2 : Int) : Int := src + 32 + 64 * spare2 + 256 * tile

/-- `0 ≤ x < n` -/
def InRange (x n : Int) : Prop := 0 ≤ x ∧ x < n

end Verif.Spec
