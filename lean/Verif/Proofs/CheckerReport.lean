import Verif.Proofs.CheckerCount

/-! The steps of `discard_reasoning` taken apart. -/
namespace Verif.Proofs
open Verif.Py Verif.Model Verif.Spec

/-- everything a successful `discard_reasoning` went through -/
theorem discardReasoning_inv {iter : List Int → List Int} {player : Fin 4} {e : Event} {hand : List Int}
    {inv : List InvElem} {melds : List Meld} {r : RoundReasoning}
    (h : discardReasoning iter player e hand inv melds = .ok r) :
    ∃ (a : Analysis) (best : RItem) (more : List RItem) (n : Int) (tile : Tile) (items : List RItem) (your : RItem)
      (rate : Rat) (strs : List (List Str)),
      analyse iter hand inv melds = .ok a ∧ expectedReasonings a.merged = .ok (best :: more) ∧
      playerDiscard player e = some n ∧ tileFromTenhou n = .ok tile ∧
      a.wins.mapM (reasoningDiscards a.invisible a.hand tile) = .ok items ∧
      reasoningMerge a.invisible items = .ok your ∧ wrongRate a.invisible.length best your = .ok rate ∧
      melds.mapM (fun m => tileNames (m.selfTiles ++ m.borrowedTiles)) = .ok strs ∧
      r = ⟨(TileSet.tiles a.hand).map Tile.str, strs, your.norm, (best :: more).map RItem.norm,
        (pySorted keyLt a.merged).map RItem.norm, rate, false, []⟩ := by
  unfold discardReasoning at h
  cases ha : analyse iter hand inv melds with
  | error err => rw [ha] at h; cases h
  | ok a =>
  rw [ha] at h
  cases he : expectedReasonings a.merged with
  | error err => simp only [bind, Except.bind, he] at h; cases h
  | ok ex =>
  cases hp : playerDiscard player e with
  | none => simp only [bind, Except.bind, he, hp] at h; cases h
  | some n =>
  simp only [bind, Except.bind, he, hp, pure, Except.pure] at h
  cases ht : tileFromTenhou n with
  | error err => rw [ht] at h; cases h
  | ok tile =>
  rw [ht] at h
  simp only at h
  cases hi : a.wins.mapM (reasoningDiscards a.invisible a.hand tile) with
  | error err => rw [hi] at h; cases h
  | ok items =>
  rw [hi] at h
  simp only at h
  cases hy : reasoningMerge a.invisible items with
  | error err => rw [hy] at h; cases h
  | ok your =>
  rw [hy] at h
  simp only at h
  cases ex with
  | nil => cases h
  | cons best more =>
  have hb : pyIdx (best :: more) 0 = .ok best := rfl
  rw [hb] at h
  simp only at h
  cases hr : wrongRate a.invisible.length best your with
  | error err => rw [hr] at h; cases h
  | ok rate =>
  rw [hr] at h
  simp only at h
  cases hm : melds.mapM (fun m => tileNames (m.selfTiles ++ m.borrowedTiles)) with
  | error err => rw [hm] at h; cases h
  | ok strs =>
  rw [hm] at h
  simp only [Except.ok.injEq] at h
  exact ⟨a, best, more, n, tile, items, your, rate, strs, rfl, he, rfl, ht, hi, hy, hr, rfl, h.symm⟩

/-- and in that case it returns -/
theorem discardReasoning_of {iter : List Int → List Int} {player : Fin 4} {e : Event} {hand : List Int}
    {inv : List InvElem} {melds : List Meld} {a : Analysis} {best : RItem} {more : List RItem} {n : Int} {tile : Tile}
    {items : List RItem} {your : RItem} {rate : Rat} {strs : List (List Str)}
    (ha : analyse iter hand inv melds = .ok a) (he : expectedReasonings a.merged = .ok (best :: more))
    (hp : playerDiscard player e = some n) (ht : tileFromTenhou n = .ok tile)
    (hi : a.wins.mapM (reasoningDiscards a.invisible a.hand tile) = .ok items)
    (hy : reasoningMerge a.invisible items = .ok your) (hr : wrongRate a.invisible.length best your = .ok rate)
    (hm : melds.mapM (fun m => tileNames (m.selfTiles ++ m.borrowedTiles)) = .ok strs) :
    discardReasoning iter player e hand inv melds =
      .ok ⟨(TileSet.tiles a.hand).map Tile.str, strs, your.norm, (best :: more).map RItem.norm,
        (pySorted keyLt a.merged).map RItem.norm, rate, false, []⟩ := by
  unfold discardReasoning
  have hb : pyIdx (best :: more) 0 = .ok best := rfl
  simp only [bind, Except.bind, pure, Except.pure, ha, he, hp, ht, hi, hy, hr, hm, hb, List.zip_nil_right, List.map_nil]

/-- everything a successful analysis went through -/
theorem analyse_inv {iter : List Int → List Int} {hand : List Int} {inv : List InvElem} {melds : List Meld} {a : Analysis}
    (h : analyse iter hand inv melds = .ok a) :
    ∃ (tiles : List Tile) (lists : List (List RItem)),
      meldCount melds ≤ 4 ∧ (iter hand).mapM tileFromTenhou = .ok tiles ∧
      a.invisible = setSub inv (hand.map InvElem.num) ∧ a.hand = reSort (Counter.ofIter tiles) ∧
      a.wins = checkedWins (meldCount melds) ∧
      winReasonings a.invisible (Counter.ofIter tiles) a.wins = .ok lists ∧
      (zipLists lists).mapM (reasoningMerge a.invisible) = .ok a.merged := by
  unfold analyse at h
  simp only [bind, Except.bind, pure, Except.pure] at h
  cases ht : (iter hand).mapM tileFromTenhou with
  | error err => rw [ht] at h; cases h
  | ok tiles =>
  rw [ht] at h
  simp only at h
  have hw : winTypes (melds.filter (fun m => decide (m.cls ≠ .kita))).length =
    if meldCount melds ≤ 4 then .ok (checkedWins (meldCount melds)) else .error .valueError := rfl
  rw [hw] at h
  by_cases hk : meldCount melds ≤ 4
  · rw [if_pos hk] at h
    simp only at h
    cases hl : winReasonings (setSub inv (hand.map InvElem.num)) (Counter.ofIter tiles : TileSet) (checkedWins (meldCount melds)) with
    | error err => rw [hl] at h; cases h
    | ok lists =>
    rw [hl] at h
    simp only at h
    cases hm : (zipLists lists).mapM (reasoningMerge (setSub inv (hand.map InvElem.num))) with
    | error err => rw [hm] at h; cases h
    | ok merged =>
    rw [hm] at h
    simp only [Except.ok.injEq] at h
    subst h
    exact ⟨tiles, lists, hk, rfl, rfl, rfl, rfl, hl, hm⟩
  · rw [if_neg hk] at h; cases h

/-- and in that case it returns -/
theorem analyse_of {iter : List Int → List Int} {hand : List Int} {inv : List InvElem} {melds : List Meld}
    {tiles : List Tile} {lists : List (List RItem)} {merged : List RItem} (hk : meldCount melds ≤ 4)
    (ht : (iter hand).mapM tileFromTenhou = .ok tiles)
    (hl : winReasonings (setSub inv (hand.map InvElem.num)) (Counter.ofIter tiles) (checkedWins (meldCount melds)) = .ok lists)
    (hm : (zipLists lists).mapM (reasoningMerge (setSub inv (hand.map InvElem.num))) = .ok merged) :
    analyse iter hand inv melds = .ok ⟨setSub inv (hand.map InvElem.num), reSort (Counter.ofIter tiles),
      checkedWins (meldCount melds), merged⟩ := by
  have hw : winTypes (melds.filter (fun m => decide (m.cls ≠ .kita))).length = .ok (checkedWins (meldCount melds)) := by
    show (if meldCount melds ≤ 4 then _ else _) = _
    rw [if_pos hk]; rfl
  unfold analyse
  simp only [bind, Except.bind, pure, Except.pure, ht, hw, hl, hm]

end Verif.Proofs
