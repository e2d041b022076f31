import Verif.Model.Frontend
import Verif.Spec.Html

/-! What the page of the record checker has to show for given reports. -/
namespace Verif.Spec
open Verif.Py Verif.Model Verif.Spec.Html

/-- the classes of the pictures of tiles -/
def tilePictures (size : String) (tiles : List Str) : List Str := tiles.map (fun t => "pic".toList ++ (t ++ ' ' :: size.toList))

/-- the steps and the number of tiles of a choice -/
def shownSteps (x : NItem) : List Str := ["Steps".toList, pyStrInt x.step, "Tiles".toList, pyStrInt x.count]

/-- a choice in a list -/
def shownItem (x : NItem) : ShownItem :=
  ⟨tilePictures "small" x.discard, ("Discard".toList ++ [Char.ofNat 160]) :: shownSteps x, tilePictures "small" x.useful⟩

/-- row number `index` for a report: blue after somebody's riichi, otherwise red, as strong as the choice was wrong; the
    melds and the hand; the choice; the expected choices; the steps and tiles of the first expected choice and of
    the choice; all choices -/
def shownRow (float : Rat → Str) (index : Nat) (r : RoundReasoning) : ShownRow where
  style := "background-color: ".toList ++
    ((if r.somebodyRichii then " rgba(0, 0, 255, ".toList else " rgba(255, 0, 0, ".toList) ++ (float r.wrongRate ++ ");".toList))
  number := natDigits index
  hand := tilePictures "big" (r.melds.flatten ++ r.hand)
  choice := tilePictures "big" r.yourChoice.discard
  expected := tilePictures "big" (r.expected.flatMap (fun x => x.discard))
  summary := [["Expected".toList], shownSteps (r.expected.headD r.yourChoice), ["Actual".toList], shownSteps r.yourChoice]
  items := r.merged.map shownItem
  more := [(["Normal-Type".toList, "Reasoning".toList], ((r.tables.lookup "normal_reasonings".toList).getD []).map shownItem),
    (["Seven-Pair".toList, "Reasoning".toList], ((r.tables.lookup "seven_pair_reasonings".toList).getD []).map shownItem)]

/-- the rows of a game, counted from 1 -/
def shownRows (float : Rat → Str) (l : List RoundReasoning) : List ShownRow :=
  l.zipIdx.map (fun e => shownRow float (e.2 + 1) e.1)

/-- the tags of the page, without the values of attributes -/
def pageTags : List (List Str) :=
  [["!DOCTYPE html"], ["html lang=", ""], ["head"], ["meta charset=", ""], ["title"], ["style type=", ""], ["body"], ["hr"],
   ["p"], ["a href=", ""], ["span class=", ""], ["div"], ["div class=", ""], ["details open"], ["details"], ["summary"], ["table"],
   ["table class=", ""], ["tr"], ["tr style=", ""], ["th"], ["br"], ["td"], ["td class=", ""]].map (fun l => l.map String.toList)

end Verif.Spec
