import Verif.Model.Wall
import Verif.Proofs.Category
import Verif.Proofs.BruteForce
import Verif.Proofs.Float
import Mathlib.Tactic.Linarith

namespace Verif.Proofs
open Verif.Py Verif.Model Verif.Spec

theorem cumWeights_length (s : Int) (ws : List Int) : (cumWeights s ws).length = ws.length := by
  induction ws generalizing s with
  | nil => rfl
  | cons w ws ih => simp [cumWeights, ih]

theorem cumWeights_get (s : Int) (ws : List Int) (j : Nat) (h : j < (cumWeights s ws).length) :
    (cumWeights s ws)[j] = s + (ws.take (j + 1)).sum := by
  induction ws generalizing s j with
  | nil => simp [cumWeights] at h
  | cons w ws ih =>
    cases j with
    | zero => simp [cumWeights]
    | succ j =>
      simp only [cumWeights, List.getElem_cons_succ]
      rw [ih]
      simp only [List.take_succ_cons, List.sum_cons]
      omega

theorem take_sum_le {ls : List Int} (hp : ∀ x ∈ ls, 0 ≤ x) {i j : Nat} (h : i ≤ j) :
    (ls.take i).sum ≤ (ls.take j).sum := by
  induction ls generalizing i j with
  | nil => simp
  | cons l ls ih =>
    have hp' : ∀ x ∈ ls, 0 ≤ x := fun y hy => hp y (by simp [hy])
    have := hp l (by simp)
    cases i with
    | zero =>
      cases j with
      | zero => simp
      | succ j =>
        have := ih hp' (Nat.zero_le j)
        simp at this
        simp only [List.take_zero, List.sum_nil, List.take_succ_cons, List.sum_cons]; omega
    | succ i =>
      cases j with
      | zero => omega
      | succ j =>
        have := ih hp' (show i ≤ j by omega)
        simp only [List.take_succ_cons, List.sum_cons]; omega

theorem cumWeights_sorted {ws : List Int} (hp : ∀ x ∈ ws, 0 ≤ x) (s : Int) :
    (cumWeights s ws).Pairwise (· ≤ ·) := by
  rw [List.pairwise_iff_getElem]
  intro i j hi hj hij
  rw [cumWeights_get, cumWeights_get]
  have := take_sum_le hp (show i + 1 ≤ j + 1 by omega)
  omega

/-- the choice made for `x` below the total: the block of the cumulative weights that `x` lies in -/
theorem choose_block {ws : List Int} (hp : ∀ x ∈ ws, 0 ≤ x) {x : Int} {b : Nat} (hb : b < ws.length)
    (h1 : (ws.take b).sum ≤ x) (h2 : x < (ws.take b).sum + ws[b]) :
    bisectRightLoop (cumWeights 0 ws) x 0 (ws.length - 1) = b := by
  have hlen := cumWeights_length 0 ws
  have htop : ∀ j (h : j < (cumWeights 0 ws).length), b ≤ j → x < (cumWeights 0 ws)[j] := by
    intro j h hj
    rw [cumWeights_get]
    have := take_sum_le hp (show b + 1 ≤ j + 1 by omega)
    rw [take_succ_sum ws hb] at this
    omega
  have hlow : ∀ j (h : j < (cumWeights 0 ws).length), j < b → (cumWeights 0 ws)[j] ≤ x := by
    intro j h hj
    rw [cumWeights_get]
    have := take_sum_le hp (show j + 1 ≤ b by omega)
    omega
  obtain ⟨b1, b2, b3⟩ := bisectRightLoop_spec (cumWeights 0 ws) x (cumWeights_sorted hp 0) 0 (ws.length - 1)
    (by omega) (by omega) (by intros; omega) (fun j h hj => htop j h (by omega))
  generalize hr : bisectRightLoop (cumWeights 0 ws) x 0 (ws.length - 1) = r at *
  by_cases hlt : r < b
  · have := b3 r (by omega) (Nat.le_refl _)
    have := hlow r (by omega) hlt
    omega
  · by_cases hgt : b < r
    · have := b2 b (by omega) hgt
      have := htop b (by omega) (Nat.le_refl _)
      omega
    · omega

theorem allTiles_views : ALL_TILES.map Tile.view = allKinds := by decide

theorem wallWeights_eq (wall : TileSet) : wallWeights wall = allKinds.map (content wall) := by
  unfold wallWeights
  rw [← allTiles_views, List.map_map]
  rfl

theorem wallWeights_sum (wall : TileSet) : (wallWeights wall).sum = sumK (content wall) := by
  rw [wallWeights_eq]; rfl

theorem randomPoint_eq {total : Int} (h0 : 0 ≤ total) (h : total ≤ 2 ^ 53) (r : Nat) :
    randomPoint total r = roundDouble ((r : ℚ) * total / 2 ^ 53) := by
  unfold randomPoint
  rw [roundDouble_int (by rw [abs_of_nonneg h0]; exact h)]
  congr 1
  push_cast
  ring

/-- a random number below one, times the total, stays below the total although the product is rounded -/
theorem scaled_range {total : Int} {r : Nat} (h1 : r < 2 ^ 53) (ht : 0 < total) (hb : total ≤ 2 ^ 53) :
    0 ≤ (randomPoint total r).floor ∧ (randomPoint total r).floor < total := by
  rw [randomPoint_eq ht.le hb]
  have tq : (0 : ℚ) < total := by exact_mod_cast ht
  have rq : (0 : ℚ) ≤ r := by positivity
  have r1 : (r : ℚ) + 1 ≤ 2 ^ 53 := by exact_mod_cast h1
  have x0 : (0 : ℚ) ≤ (r : ℚ) * total / 2 ^ 53 := by positivity
  have hx : (r : ℚ) * total / 2 ^ 53 * 2 ^ 53 = r * total := by field_simp
  generalize (r : ℚ) * total / 2 ^ 53 = x at x0 hx
  have p53 : (0 : ℚ) < 2 ^ 53 := by positivity
  have gap : (x + total / 2 ^ 53) * 2 ^ 53 ≤ total * 2 ^ 53 := by
    rw [add_mul, hx, div_mul_cancel₀ _ p53.ne']
    nlinarith
  have gap := le_of_mul_le_mul_right gap p53
  have tp : (0 : ℚ) < total / 2 ^ 53 := by positivity
  have lt : roundDouble x < total := by
    have h1 := roundDouble_mono (show x ≤ (total : ℚ) by linarith)
    rw [roundDouble_int (by rw [abs_of_pos ht]; exact hb)] at h1
    refine lt_of_le_of_ne h1 (fun e => ?_)
    have err := roundDouble_error x
    rw [e, abs_of_nonneg (show (0 : ℚ) ≤ total - x by linarith), abs_of_nonneg x0] at err
    have : x / 2 ^ 53 < total / 2 ^ 53 := by
      rw [div_lt_div_iff_of_pos_right p53]; linarith
    linarith
  have ge := roundDouble_mono x0
  rw [roundDouble_zero] at ge
  constructor
  · rw [Rat.le_floor_iff]; exact_mod_cast ge
  · rw [Rat.floor_lt_iff]; exact lt

/-- one draw: some tile with positive weight -/
theorem chooseTile_spec {wall : TileSet} (hh : HandOK wall) (hpos : 0 < sumK (content wall))
    (hle : sumK (content wall) ≤ 2 ^ 53) {r : Nat} (h1 : r < 2 ^ 53) :
    ∃ t, chooseTile (wallWeights wall) r = some t ∧ RealTile t ∧ t.aka = false ∧ 0 < content wall t.view := by
  have hp : ∀ x ∈ wallWeights wall, 0 ≤ x := by
    intro x hx
    rw [wallWeights_eq] at hx
    obtain ⟨k, _, rfl⟩ := List.mem_map.1 hx
    exact hh.get_nonneg k
  have hlen : (wallWeights wall).length = ALL_TILES.length := by simp [wallWeights]
  have hs := wallWeights_sum wall
  obtain ⟨a, b⟩ := scaled_range h1 hpos hle
  rw [← hs] at a b
  obtain ⟨k, hk, h3, h4⟩ := exists_block _ _ a b
  have hk' : k < ALL_TILES.length := by omega
  have hb := choose_block hp hk h3 h4
  rw [hlen] at hb
  refine ⟨ALL_TILES[k], ?_, ?_, ?_, ?_⟩
  · unfold chooseTile
    simp only
    rw [hb, List.getElem?_eq_getElem hk']
  · have : ∀ t ∈ ALL_TILES, RealTile t := by decide
    exact this _ (List.getElem_mem hk')
  · have : ∀ t ∈ ALL_TILES, t.aka = false := by decide
    exact this _ (List.getElem_mem hk')
  · have e : (wallWeights wall)[k] = content wall (ALL_TILES[k]).view := by
      simp [wallWeights, content]
    omega

theorem content_ofIter_one (t : Tile) (k : Kind) :
    content (Counter.ofIter [t]) k = if k = t.view then 1 else 0 := by
  unfold content
  rw [get_ofIter']
  by_cases hk : k = t.view
  · subst hk; simp
  · have hk' : ¬ t.view = k := fun h => hk h.symm
    simp [List.count_cons, hk, hk']

theorem content_pick {wall : TileSet} (hh : HandOK wall) {t : Tile} (hpos : 0 < content wall t.view) (k : Kind) :
    content (wallPick wall t) k = if k = t.view then content wall k - 1 else content wall k := by
  have h0 := hh.get_nonneg k
  have h1 := content_ofIter_one t k
  unfold wallPick content at *
  rw [get_sub hh.1 (Counter.WF_ofIter _), h1]
  by_cases hk : k = t.view
  · subst hk; simp only [if_true]; omega
  · simp only [hk, if_false]; omega

/-- weights that are all zero: the search ends at the last tile -/
theorem chooseTile_empty {wall : TileSet} (hz : ∀ k, content wall k = 0) (r : Nat) :
    chooseTile (wallWeights wall) r = some ⟨.z, 7, false⟩ := by
  have e : wallWeights wall = List.replicate 34 0 := by
    rw [wallWeights_eq, List.map_congr_left (g := fun _ => (0 : Int)) (fun k _ => hz k)]
    decide
  have e2 : randomPoint 0 r = 0 := by
    unfold randomPoint
    rw [Int.cast_zero, roundDouble_zero, mul_zero, roundDouble_zero]
  unfold chooseTile
  simp only [e]
  rw [show (List.replicate 34 (0 : Int)).sum = 0 from by decide, e2]
  decide +kernel

theorem sample_append (wall : TileSet) (rs more : List Nat) :
    wallSample wall (rs ++ more) =
      (wallSample wall rs).bind (fun p => (wallSample p.2 more).map (fun q => (p.1 ++ q.1, q.2))) := by
  induction rs generalizing wall with
  | nil =>
    simp only [List.nil_append, wallSample, Option.bind_some]
    cases wallSample wall more <;> rfl
  | cons r rs ih =>
    simp only [List.cons_append, wallSample]
    cases chooseTile (wallWeights wall) r with
    | none => rfl
    | some t =>
      simp only [ih]
      cases wallSample (wallPick wall t) rs with
      | none => rfl
      | some p =>
        simp only [Option.bind_some, Option.map_some]
        cases wallSample p.2 more <;> rfl

theorem length_eq_sumK {l : List Tile} (h : ∀ t ∈ l, RealTile t) :
    (l.length : Int) = sumK (fun k => ((l.map Tile.view).count k : Int)) := by
  induction l with
  | nil => decide
  | cons t l ih =>
    have e : sumK (fun k => (((t :: l).map Tile.view).count k : Int)) =
        sumK (fun k => ((l.map Tile.view).count k : Int) + (if k = t.view then 1 else 0)) := by
      apply sumK_congr
      intro k _
      simp only [List.map_cons, List.count_cons]
      by_cases hk : k = t.view
      · subst hk; simp
      · have hk' : ¬ t.view = k := fun h => hk h.symm
        simp [hk, hk']
    rw [e, sumK_add, sumK_single (h t (by simp)).1, ← ih (fun x hx => h x (by simp [hx]))]
    simp

theorem content_zero {wall : TileSet} (hh : HandOK wall) (hs : sumK (content wall) = 0) (k : Kind) : content wall k = 0 := by
  have h0 := hh.get_nonneg k
  by_cases hv : ValidKind k
  · have := le_sumK (f := content wall) (fun k _ => hh.get_nonneg k) hv
    unfold content at *
    omega
  · by_contra hne
    have : k ∈ wall.map (fun e => e.1.view) := by
      by_contra hn
      exact hne (Counter.get_of_not_mem hn)
    obtain ⟨e, he, rfl⟩ := List.mem_map.1 this
    exact hv (hh.2.1 e he).1

theorem empty_sample (more : List Nat) {wall : TileSet} (hz : ∀ k, content wall k = 0) (hh : HandOK wall) :
    ∃ rest, wallSample wall more = some (List.replicate more.length ⟨.z, 7, false⟩, rest) ∧ ∀ k, content rest k = 0 := by
  induction more generalizing wall with
  | nil => exact ⟨wall, rfl, hz⟩
  | cons r more ih =>
    have hone : HandOK (Counter.ofIter [(⟨.z, 7, false⟩ : Tile)]) := by decide
    obtain ⟨rest, h1, h2⟩ := ih (wall := wallPick wall ⟨.z, 7, false⟩)
      (by
        intro k
        have := hz k
        have := hone.get_nonneg k
        unfold wallPick content at *
        rw [get_sub hh.1 hone.1]
        omega)
      (HandOK_sub hh hone)
    refine ⟨rest, ?_, h2⟩
    unfold wallSample
    rw [chooseTile_empty hz]
    simp [h1, List.replicate_succ]

end Verif.Proofs
