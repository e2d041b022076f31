import Verif.Props.Meld

/-!
# C28: which melds are open
-/

namespace Verif.Props
open Verif.Py Verif.Model Verif.Spec Verif.Proofs

/-- **C28.** A meld is open exactly if a tile of another player is in it: a run, a triplet, and a kan whose code names another seat.
    For a kan this is what `is_opened_kan` says. -/
theorem C28_opened (who v : Int) (m : Meld) (hm : meldOf who v = .ok m) :
    (m.isOpened = true ↔ m.cls = .flush ∨ m.cls = .triplet ∨ (m.cls = .kan ∧ v % 4 ≠ 0)) ∧
    (m.cls = .kan → isOpenedKan v = .ok m.isOpened) := by
  by_cases hr : 0 ≤ v ∧ v ≤ 65535
  rotate_left
  · exfalso
    have : unpackWith kitaDesc v = .error .structError := C25_rejects _ _ (by omega)
    unfold meldOf at hm
    rw [this] at hm
    cases hm
  obtain ⟨h0, h1⟩ := hr
  have hk : isOpenedKan v = .ok (decide (v % 4 ≠ 0)) := by
    unfold isOpenedKan
    rw [unpack_kan v h0 h1]
    rfl
  rw [hk]
  rw [meldOf_eq who v h0 h1] at hm
  unfold Meld.isOpened
  by_cases a : v / 4 % 2 = 1
  · rw [if_pos a, decodeFlush_eq _ _ h0 h1] at hm
    split at hm
    · cases hm; simp
    · cases hm
  rw [if_neg a] at hm
  by_cases b : v / 8 % 2 = 1
  · rw [if_pos b, decodeTriplet_eq _ _ h0 h1] at hm
    split at hm
    · cases hm; simp
    · cases hm
  rw [if_neg b] at hm
  by_cases c : v / 16 % 2 = 1
  · rw [if_pos c, decodeAddedKan_eq _ _ h0 h1] at hm
    split at hm
    · cases hm; simp
    · cases hm
  rw [if_neg c] at hm
  by_cases d : v / 32 % 2 = 1
  · rw [if_pos d, decodeKita_eq _ _ h0 h1] at hm
    cases hm; simp
  · rw [if_neg d, decodeKan_eq _ _ h0 h1] at hm
    split at hm
    · dsimp only at hm
      split at hm
      · rename_i hz; cases hm; simp [hz]
      · rename_i hz; cases hm; simp [hz]
    · cases hm

/-- **C28.** A kan made of an open triplet is open; the triplet and the added tile are its tiles. -/
theorem C28_opened_added (triplet added : Meld) : (kanFromTriplet triplet added).isOpened = triplet.isOpened := rfl

/-- an open run, an open kan and a concealed kan -/
example : ((meldOf 1 0b1010011011011101).toOption.map Meld.isOpened = some true) ∧
    ((meldOf 1 (kanCode 2 5 1 0)).toOption.map Meld.isOpened = some true) ∧
    ((meldOf 1 (kanCode 0 5 1 0)).toOption.map Meld.isOpened = some false) ∧
    (isOpenedKan (kanCode 2 5 1 0)).toOption = some true := by decide +kernel

end Verif.Props
