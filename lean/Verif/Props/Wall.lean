import Verif.Proofs.Wall

/-! Property C24: sampling from a wall. -/
namespace Verif.Props
open Verif.Py Verif.Model Verif.Spec Verif.Proofs

/-- **C24.** Whatever the random source returns, drawing at most as many tiles as the wall holds
    succeeds, every kind is drawn at most as often as it occurs, and what is left is the wall minus the
    drawn tiles. -/
theorem C24_sample_without_replacement (wall : TileSet) (hh : HandOK wall) (hle : TileSet.len wall ≤ 2 ^ 53) (rs : List Nat)
    (hr : ∀ r ∈ rs, r < 2 ^ 53) (hn : (rs.length : Int) ≤ TileSet.len wall) :
    ∃ ts rest, wallSample wall rs = some (ts, rest) ∧ ts.length = rs.length ∧ HandOK rest ∧
      (∀ t ∈ ts, RealTile t ∧ 0 < content wall t.view) ∧
      (∀ k, ((ts.map Tile.view).count k : Int) ≤ content wall k) ∧
      (∀ k, content rest k = content wall k - ((ts.map Tile.view).count k : Int)) := by
  induction rs generalizing wall with
  | nil =>
    refine ⟨[], wall, rfl, rfl, hh, by simp, fun k => ?_, by simp⟩
    simp only [List.map_nil, List.count_nil]
    exact hh.get_nonneg k
  | cons r rs ih =>
    have hlen : TileSet.len wall = sumK (content wall) := total_eq_sumK hh.1 hh.2.1
    have hpos : 0 < sumK (content wall) := by rw [hlen] at hn; simp at hn; omega
    obtain ⟨t, c1, c2, _, c4⟩ := chooseTile_spec hh hpos (by omega) (hr r (by simp))
    have hone : HandOK (Counter.ofIter [t]) := HandOK_ofIter (by simpa using c2)
    have hh' : HandOK (wallPick wall t) := HandOK_sub hh hone
    have hcp := fun k => content_pick hh c4 k
    have hsum : sumK (content (wallPick wall t)) = sumK (content wall) - 1 := by
      have e1 := sumK_add (content (wallPick wall t)) (fun k => if k = t.view then 1 else 0)
      rw [sumK_single c2.1] at e1
      have e2 : sumK (content wall) =
          sumK (fun k => content (wallPick wall t) k + (if k = t.view then 1 else 0)) := by
        apply sumK_congr
        intro k _
        rw [hcp k]
        split <;> omega
      omega
    have hlen' : TileSet.len (wallPick wall t) = sumK (content (wallPick wall t)) :=
      total_eq_sumK hh'.1 hh'.2.1
    obtain ⟨ts, rest, i1, i2, i3, i4, i5, i6⟩ := ih (wallPick wall t) hh' (by omega)
      (fun r' h' => hr r' (by simp [h'])) (by rw [hlen', hsum]; rw [hlen] at hn; simp at hn; omega)
    refine ⟨t :: ts, rest, ?_, by simp [i2], i3, ?_, ?_, ?_⟩
    · unfold wallSample
      rw [c1]
      simp [i1]
    · intro t' ht'
      rcases List.mem_cons.1 ht' with rfl | ht'
      · exact ⟨c2, c4⟩
      · obtain ⟨a, b⟩ := i4 t' ht'
        refine ⟨a, ?_⟩
        rw [hcp] at b
        split at b <;> omega
    · intro k
      have := i5 k
      rw [hcp k] at this
      simp only [List.map_cons, List.count_cons]
      by_cases hk : k = t.view
      · subst hk; simp at this ⊢; omega
      · have hk' : ¬ t.view = k := fun h => hk h.symm
        simp [hk, hk'] at this ⊢; exact this
    · intro k
      rw [i6 k, hcp k]
      simp only [List.map_cons, List.count_cons]
      by_cases hk : k = t.view
      · subst hk; simp; omega
      · have hk' : ¬ t.view = k := fun h => hk h.symm
        simp [hk, hk']

/-- **C24.** Picking a tile that the wall holds lowers exactly that tile's weight, by one. -/
theorem C24_pick (wall : TileSet) (hh : HandOK wall) (t : Tile) (hpos : 0 < content wall t.view) (k : Kind) :
    content (wallPick wall t) k = if k = t.view then content wall k - 1 else content wall k :=
  content_pick hh hpos k

/-- **C24.** The wall does not say when it is used up: after as many draws as it holds, which together are the whole wall, every
    further draw is `7z`, whether the wall held one or not. -/
theorem C24_overdrawn (wall : TileSet) (hh : HandOK wall) (hle : TileSet.len wall ≤ 2 ^ 53) (rs more : List Nat)
    (hr : ∀ r ∈ rs, r < 2 ^ 53) (hn : (rs.length : Int) = TileSet.len wall) :
    ∃ ts rest, wallSample wall (rs ++ more) = some (ts ++ List.replicate more.length ⟨.z, 7, false⟩, rest) ∧
      ts.length = rs.length ∧ (∀ t ∈ ts, RealTile t) ∧
      (∀ k, ((ts.map Tile.view).count k : Int) = content wall k) ∧ ∀ k, content rest k = 0 := by
  obtain ⟨ts, rest, h1, h2, h3, h4, h5, h6⟩ := C24_sample_without_replacement wall hh hle rs hr (by omega)
  have hlen : TileSet.len wall = sumK (content wall) := total_eq_sumK hh.1 hh.2.1
  have hall : (ts.length : Int) = sumK (fun k => ((ts.map Tile.view).count k : Int)) :=
    length_eq_sumK (fun t ht => (h4 t ht).1)
  have hsum : sumK (content rest) = 0 := by
    have e := sumK_add (content rest) (fun k => ((ts.map Tile.view).count k : Int))
    have e2 : sumK (content wall) = sumK (fun k => content rest k + ((ts.map Tile.view).count k : Int)) := by
      apply sumK_congr
      intro k _
      rw [h6 k]; omega
    omega
  have hz : ∀ k, content rest k = 0 := content_zero h3 hsum
  obtain ⟨rest', e1, e2⟩ := empty_sample more hz h3
  refine ⟨ts, rest', ?_, h2, fun t ht => (h4 t ht).1, fun k => ?_, e2⟩
  · rw [sample_append, h1]
    simp [e1]
  · have := h6 k
    rw [hz k] at this
    omega

/-- **C24.** The draw is proportional to the weights: scaled to the size of the wall, and rounded to a float, the random numbers
    that select the `j`-th kind are exactly those in an interval as long as the number of copies the wall holds. -/
theorem C24_choice_interval (wall : TileSet) (hh : HandOK wall) (hle : TileSet.len wall ≤ 2 ^ 53) (r : Nat) (h1 : r < 2 ^ 53)
    (hpos : 0 < TileSet.len wall) (j : Nat) (hj : j < 34) (t : Tile) (ht : ALL_TILES[j]? = some t) :
    ∃ x : ℚ, NearestDouble ((r : ℚ) * TileSet.len wall / 2 ^ 53) x ∧
      (chooseTile (wallWeights wall) r = some t ↔
        (((allKinds.take j).map (content wall)).sum : ℤ) ≤ x ∧
          x < (((allKinds.take j).map (content wall)).sum + content wall t.view : ℤ)) := by
  refine ⟨randomPoint (TileSet.len wall) r, ?_, ?_⟩
  · rw [randomPoint_eq hpos.le hle]
    exact roundDouble_nearest _
  rw [← Rat.le_floor_iff, ← Rat.floor_lt_iff]
  have hlen : TileSet.len wall = sumK (content wall) := total_eq_sumK hh.1 hh.2.1
  rw [hlen] at hpos hle ⊢
  have hp : ∀ x ∈ wallWeights wall, 0 ≤ x := by
    intro x hx
    rw [wallWeights_eq] at hx
    obtain ⟨k, _, rfl⟩ := List.mem_map.1 hx
    exact hh.get_nonneg k
  have hwl : (wallWeights wall).length = ALL_TILES.length := by simp [wallWeights]
  have h34 : ALL_TILES.length = 34 := rfl
  have hs := wallWeights_sum wall
  have htake : ∀ b, ((wallWeights wall).take b).sum = ((allKinds.take b).map (content wall)).sum := by
    intro b; rw [wallWeights_eq, List.map_take]
  have hget : ∀ b (hb : b < 34) t', ALL_TILES[b]? = some t' →
      (wallWeights wall)[b]'(by omega) = content wall t'.view := by
    intro b hb t' ht'
    rw [List.getElem?_eq_getElem (by omega)] at ht'
    have := Option.some.inj ht'
    subst this
    simp [wallWeights, content]
  obtain ⟨a, b⟩ := scaled_range h1 hpos hle
  constructor
  · intro hc
    rw [← hs] at a b
    obtain ⟨k, hk, h3, h4⟩ := exists_block _ _ a b
    have hb := choose_block hp hk h3 h4
    rw [hwl] at hb
    have hkj : k = j := by
      unfold chooseTile at hc
      simp only at hc
      rw [hb, ← ht] at hc
      exact (List.getElem?_inj (by omega) (by decide)).1 hc
    subst hkj
    rw [htake] at h3 h4
    rw [hget k hj t ht] at h4
    rw [hs] at h3 h4
    exact ⟨h3, h4⟩
  · rintro ⟨h3, h4⟩
    rw [← htake] at h3 h4
    rw [← hget j hj t ht] at h4
    have hb := choose_block hp (show j < (wallWeights wall).length by omega) h3 h4
    rw [hwl] at hb
    unfold chooseTile
    simp only
    rw [hs, hb, ht]

/-- instance: a wall with a red five and an honour; three draws with the random numbers 1/2, 0 and the largest one. -/
example : HandOK [(⟨.p,0,true⟩, 1), (⟨.z,7,false⟩, 2)] ∧
    wallSample [(⟨.p,0,true⟩, 1), (⟨.z,7,false⟩, 2)] [2 ^ 52, 0, 2 ^ 53 - 1] =
      some ([⟨.z,7,false⟩, ⟨.p,5,false⟩, ⟨.z,7,false⟩], []) := by decide +kernel

/-- the same wall with two draws too many, and a wall without any `7z` -/
example : wallSample [(⟨.p,0,true⟩, 1), (⟨.z,7,false⟩, 2)] ([2 ^ 52, 0, 2 ^ 53 - 1] ++ [0, 5]) =
      some ([⟨.z,7,false⟩, ⟨.p,5,false⟩, ⟨.z,7,false⟩] ++ List.replicate 2 ⟨.z,7,false⟩, []) ∧
    wallSample [(⟨.m,1,false⟩, 1)] ([0] ++ [0]) = some ([⟨.m,1,false⟩] ++ List.replicate 1 ⟨.z,7,false⟩, []) := by decide +kernel

end Verif.Props
