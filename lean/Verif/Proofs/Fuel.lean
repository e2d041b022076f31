import Verif.Proofs.HeurTop

/-! The recursion bounds of the waiting searches are large enough: more fuel changes nothing. -/
namespace Verif.Proofs
open Verif.Py Verif.Model Verif.Spec

theorem flatMap_congr_mem {α β : Type} {l : List α} {f g : α → List β} (h : ∀ x ∈ l, f x = g x) :
    l.flatMap f = l.flatMap g := by
  induction l with
  | nil => rfl
  | cons a l ih => simp only [List.flatMap_cons]; rw [h a (by simp), ih (fun x hx => h x (by simp [hx]))]

theorem pmTiles_congr {r r' : TileSet → Pattern → List Tile → List (Selection × TileSet)} {w : Pattern}
    (h : ∀ c w' l, w'.needUnits < w.needUnits → r c w' l = r' c w' l) (l : List Tile) (hand : TileSet) :
    pmTiles r w l hand = pmTiles r' w l hand := by
  induction l generalizing hand with
  | nil => rfl
  | cons t l ih =>
    simp only [pmTiles]
    rw [ih]
    congr 1
    refine flatMap_congr_mem (fun e he => ?_)
    rw [h _ _ _ (by have := needUnits_nextStates he; omega)]

theorem pmSel_fuel (max : Int) (ig : Bool) (limits : TileSet) :
    ∀ (f : Nat) (hand : TileSet) (w : Pattern) (l : List Tile), w.needUnits < f →
      pmSel max ig limits f hand w l = pmSel max ig limits (w.needUnits + 1) hand w l := by
  have key : ∀ (f f' : Nat) (hand : TileSet) (w : Pattern) (l : List Tile), w.needUnits < f →
      w.needUnits < f' → pmSel max ig limits f hand w l = pmSel max ig limits f' hand w l := by
    intro f
    induction f with
    | zero => intro f' hand w l h; omega
    | succ f ih =>
      intro f' hand w l h h'
      cases f' with
      | zero => omega
      | succ f' =>
        simp only [pmSel]
        rw [pmTiles_congr (r := pmSel max ig limits f) (r' := pmSel max ig limits f')
          (fun c w' l hlt => ih f' c w' l (by omega) (by omega))]
  exact fun f hand w l h => key f _ hand w l h (by omega)

theorem hUnits_congr {r r' : TileSet → Pattern → Int → List HRes × Int} {hand : TileSet}
    {basic mu can : Int} (es : List (TileSet × Pattern)) (h : ∀ e ∈ es, ∀ c m, r c e.2 m = r' c e.2 m) (m : Int) :
    hUnits r hand basic mu can es m = hUnits r' hand basic mu can es m := by
  induction es generalizing m with
  | nil => rfl
  | cons e es ih =>
    simp only [hUnits]
    rw [h e (by simp)]
    simp only [ih (fun e he => h e (by simp [he]))]

theorem hTiles_congr {r r' : (Nat → List Tile) → TileSet → Pattern → Int → List HRes × Int} {w : Pattern}
    (h : ∀ g c w' m, w'.needUnits < w.needUnits → r g c w' m = r' g c w' m)
    {groups : Nat → List Tile} {hand : TileSet} {basic mu : Int} {can : Nat} (l : List Tile) (m : Int) :
    hTiles r w groups hand basic mu can l m = hTiles r' w groups hand basic mu can l m := by
  induction l generalizing m with
  | nil => rfl
  | cons t l ih =>
    simp only [hTiles]
    have := hUnits_congr (hand := hand) (basic := basic) (mu := mu) (can := (can : Int))
      (r := r (fun i => if i = can then t :: l else groups i))
      (r' := r' (fun i => if i = can then t :: l else groups i)) (w.nextStates t)
      (fun e he c m => h _ _ _ _ (by have := needUnits_nextStates he; omega)) m
    rw [this]
    simp only [ih]

theorem hStages_congr {r r' : Nat → (Nat → List Tile) → TileSet → Pattern → Int → List HRes × Int}
    {w : Pattern} (h : ∀ s g c w' m, w'.needUnits < w.needUnits → r s g c w' m = r' s g c w' m)
    {groups : Nat → List Tile} {hand : TileSet} {basic : Int} (l : List Nat) (m : Int) :
    hStages r w groups hand basic l m = hStages r' w groups hand basic l m := by
  induction l generalizing m with
  | nil => rfl
  | cons can l ih =>
    simp only [hStages]
    rw [hTiles_congr (r := r can) (r' := r' can) (h can)]
    simp only [ih]

theorem hSel_fuel (ig : Bool) (limits : TileSet) (pr : Int) :
    ∀ (f stage : Nat) (g : Nat → List Tile) (hand : TileSet) (w : Pattern) (m : Int), w.needUnits < f →
      hSel ig limits pr f stage g hand w m = hSel ig limits pr (w.needUnits + 1) stage g hand w m := by
  have key : ∀ (f f' stage : Nat) (g : Nat → List Tile) (hand : TileSet) (w : Pattern) (m : Int),
      w.needUnits < f → w.needUnits < f' →
      hSel ig limits pr f stage g hand w m = hSel ig limits pr f' stage g hand w m := by
    intro f
    induction f with
    | zero => intro f' s g hand w l h; omega
    | succ f ih =>
      intro f' s g hand w m h h'
      cases f' with
      | zero => omega
      | succ f' =>
        simp only [hSel]
        rw [hStages_congr (r := hSel ig limits pr f) (r' := hSel ig limits pr f')
          (fun s g c w' m hlt => ih f' s g c w' m (by omega) (by omega))]
  exact fun f s g hand w m h => key f _ s g hand w m h (by omega)

end Verif.Proofs
