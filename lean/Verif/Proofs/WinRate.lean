import Verif.Model.WinRate
import Verif.Spec.WinRate
import Verif.Proofs.Wall
import Verif.Proofs.BruteForce
import Mathlib.Data.List.Nodup
import Mathlib.Tactic.Linarith
import Mathlib.Tactic.Ring
import Mathlib.Tactic.Positivity
import Mathlib.Tactic.FieldSimp
import Mathlib.Algebra.Order.Field.Basic
import Mathlib.Algebra.BigOperators.Group.List.Basic

namespace Verif.Proofs
open Verif.Py Verif.Model Verif.Spec

theorem anyPattern_iff {hand : TileSet} (hh : HandOK hand) :
    anyPattern winPatterns hand = true ↔ Wins (.normal 1 4) (content hand) ∨ Wins (.unique 7 []) (content hand) := by
  have h1 := winMatch_iff (w := .normal 1 4) hh
  have h2 := winMatch_iff (w := .unique 7 []) hh.reSort
  rw [content_reSort hh] at h2
  simp only [winPatterns, anyPattern]
  rw [← h1, ← h2]
  split <;> rename_i h <;> simp [h]

theorem content_after {hand : TileSet} (hh : HandOK hand) {e : Tile × Int} (he : e ∈ hand) (hp : 0 < e.2)
    {ts : List Tile} :
    content (TileSet.add (TileSet.sub hand (Counter.ofIter [e.1])) (Counter.ofIter ts)) = after hand e.1.view ts := by
  have hr := hh.2.1 e he
  have hone : HandOK (Counter.ofIter [e.1]) := HandOK_ofIter (by simpa using hr)
  have hpos : 0 < content hand e.1.view := by
    unfold content
    have := Counter.get_of_mem hh.1 he
    rw [show view e.1 = e.1.view from rfl] at this
    omega
  funext k
  rw [content_added (HandOK_sub hh hone) ts k]
  have := content_pick hh hpos k
  unfold wallPick at this
  rw [this]
  unfold after
  split <;> omega

theorem discard_completes {hand : TileSet} (hh : HandOK hand) {e : Tile × Int} (he : e ∈ hand) (hp : 0 < e.2)
    {ts : List Tile} (ht : ∀ t ∈ ts, RealTile t) :
    anyPattern winPatterns (TileSet.add (TileSet.sub hand (Counter.ofIter [e.1])) (Counter.ofIter ts)) = true ↔
      Completes hand e.1.view ts := by
  have hone : HandOK (Counter.ofIter [e.1]) := HandOK_ofIter (by simpa using hh.2.1 e he)
  rw [anyPattern_iff (HandOK_add (HandOK_sub hh hone) (HandOK_ofIter ht)), content_after hh he hp]
  rfl

/-- the loop over a list of discards with different kinds. -/
theorem discardLoop_eq (sample : TileSet) (l : List (Tile × TileSet)) (win : Kind → Int) (total : Int)
    (set : List Kind) (hn : (l.map (fun d => d.1.view)).Nodup) (hd : ∀ d ∈ l, d.1.view ∉ set) :
    discardLoop sample l (win, total, set) =
      let W := (l.filter (fun d => anyPattern winPatterns (TileSet.add d.2 sample))).map (fun d => d.1.view)
      (fun k => win k + (if k ∈ W then 1 else 0), total + W.length, set ++ W) := by
  induction l generalizing win total set with
  | nil => simp [discardLoop]
  | cons d l ih =>
    obtain ⟨tile, hand⟩ := d
    simp only [List.map_cons, List.nodup_cons] at hn
    have hd0 : tile.view ∉ set := hd (tile, hand) (by simp)
    unfold discardLoop
    by_cases h : anyPattern winPatterns (TileSet.add hand sample) = true
    · simp only [h, if_true, hd0, if_false]
      rw [ih _ _ _ hn.2 ?_]
      · simp only [List.filter_cons, h, if_true, List.map_cons, List.length_cons, List.mem_cons, List.append_assoc,
          List.singleton_append]
        have hnot : tile.view ∉ (l.filter (fun d => anyPattern winPatterns (TileSet.add d.2 sample))).map (fun d => d.1.view) := by
          intro hc
          apply hn.1
          obtain ⟨d, hd, e⟩ := List.mem_map.1 hc
          exact List.mem_map.2 ⟨d, (List.mem_filter.1 hd).1, e⟩
        refine Prod.ext ?_ (Prod.ext ?_ rfl)
        · funext k
          simp only [bump]
          by_cases hk : k = tile.view
          · subst hk; simp [hnot]
          · simp only [hk, if_false, false_or]
        · push_cast; omega
      · intro d hd'
        simp only [List.mem_append, List.mem_singleton, not_or]
        refine ⟨hd d (by simp [hd']), fun hc => hn.1 ?_⟩
        rw [← hc]
        exact List.mem_map.2 ⟨d, hd', rfl⟩
    · simp only [h, List.filter_cons]
      simp only [Bool.false_eq_true, if_false]
      exact ih _ _ _ hn.2 (fun d hd' => hd d (by simp [hd']))

theorem foldl_bump (l : List Kind) (x : Rat) (f : Kind → Rat) (hn : l.Nodup) (k : Kind) :
    l.foldl (fun f k => bump f k x) f k = f k + (if k ∈ l then x else 0) := by
  induction l generalizing f with
  | nil => simp
  | cons a l ih =>
    simp only [List.nodup_cons] at hn
    simp only [List.foldl_cons]
    rw [ih _ hn.2]
    by_cases hk : k = a
    · subst hk; simp [bump, hn.1]
    · simp [bump, hk]

theorem shareLoop_eq {set : List Kind} (hn : set.Nodup) (f : Kind → Rat) (k : Kind) :
    shareLoop set f k = f k + (if k ∈ set then 1 / (set.length : Rat) else 0) :=
  foldl_bump set _ f hn k

theorem condLoop_eq {set : List Kind} (hs : set.Nodup) (l : List Kind) (c : Kind → Kind → Rat) (hn : l.Nodup)
    (a b : Kind) :
    l.foldl (fun (c : Kind → Kind → Rat) n => fun a => if a = n then shareLoop set (c a) else c a) c a b =
      c a b + (if a ∈ l ∧ b ∈ set then 1 / (set.length : Rat) else 0) := by
  induction l generalizing c with
  | nil => simp
  | cons x l ih =>
    simp only [List.nodup_cons] at hn
    simp only [List.foldl_cons]
    rw [ih _ hn.2]
    by_cases hk : a = x
    · subst hk
      simp [hn.1, shareLoop_eq hs]
    · simp [hk]

theorem heldList_nodup {hand : TileSet} (hh : HandOK hand) : (heldList hand).Nodup := hh.1

theorem winners_nodup {hand : TileSet} (hh : HandOK hand) (ts : List Tile) : (winners hand ts).Nodup :=
  (heldList_nodup hh).filter _

/-- one experiment -/
theorem winTrial_eq {hand : TileSet} (hh : HandOK hand) (hp : ∀ e ∈ hand, 0 < e.2) (st : WinStats)
    {ts : List Tile} (ht : ∀ t ∈ ts, RealTile t) :
    winTrial hand st ts =
      { win := fun k => st.win k + (if k ∈ winners hand ts then 1 else 0)
        total := st.total + (winners hand ts).length
        avg := fun k => st.avg k + (if k ∈ winners hand ts then 1 / ((winners hand ts).length : Rat) else 0)
        cond := fun a b => st.cond a b +
          (if (a ∈ heldList hand ∧ a ∉ winners hand ts) ∧ b ∈ winners hand ts
           then 1 / ((winners hand ts).length : Rat) else 0) } := by
  have hm : (possibleDiscard hand).map (fun d => d.1.view) = heldList hand := by
    simp [possibleDiscard, heldList]
  have hW : ((possibleDiscard hand).filter
      (fun d => anyPattern winPatterns (TileSet.add d.2 (Counter.ofIter ts)))).map (fun d => d.1.view) =
      winners hand ts := by
    unfold possibleDiscard winners heldList
    rw [List.filter_map, List.filter_map, List.map_map]
    show List.map (fun e : Tile × Int => e.1.view) _ = _
    congr 1
    apply List.filter_congr
    intro e he
    have := discard_completes hh he (hp e he) ht
    simp only [Function.comp]
    rw [Bool.eq_iff_iff, this]
    simp
  unfold winTrial
  simp only
  rw [discardLoop_eq _ _ _ _ _ (by rw [hm]; exact heldList_nodup hh) (by simp)]
  simp only [hW, List.nil_append, hm]
  have hnd := winners_nodup hh ts
  congr 1
  · funext k; exact shareLoop_eq hnd _ k
  · funext a b
    rw [condLoop_eq hnd _ _ ((heldList_nodup hh).filter _)]
    simp [List.mem_filter]


theorem trials_win {hand : TileSet} (hh : HandOK hand) (hp : ∀ e ∈ hand, 0 < e.2) {samples : List (List Tile)}
    (ht : ∀ ts ∈ samples, ∀ t ∈ ts, RealTile t) (st : WinStats) :
    samples.foldl (winTrial hand) st =
      { win := fun k => st.win k + (samples.map (fun ts => if k ∈ winners hand ts then (1 : Int) else 0)).sum
        total := st.total + (samples.map (fun ts => ((winners hand ts).length : Int))).sum
        avg := fun k => st.avg k + (samples.map (fun ts =>
          if k ∈ winners hand ts then 1 / ((winners hand ts).length : Rat) else 0)).sum
        cond := fun a b => st.cond a b + (samples.map (fun ts =>
          if (a ∈ heldList hand ∧ a ∉ winners hand ts) ∧ b ∈ winners hand ts
           then 1 / ((winners hand ts).length : Rat) else 0)).sum } := by
  induction samples generalizing st with
  | nil => simp
  | cons ts l ih =>
    simp only [List.foldl_cons]
    rw [ih (fun x hx => ht x (by simp [hx])), winTrial_eq hh hp st (ht ts (by simp))]
    simp [add_assoc]

theorem sum_map_add' {α : Type} (f g : α → Rat) (l : List α) :
    (l.map (fun x => f x + g x)).sum = (l.map f).sum + (l.map g).sum := by
  induction l with
  | nil => simp
  | cons a l ih => simp only [List.map_cons, List.sum_cons, ih]; ring

theorem sum_map_addZ {α : Type} (f g : α → Int) (l : List α) :
    (l.map (fun x => f x + g x)).sum = (l.map f).sum + (l.map g).sum := by
  induction l with
  | nil => simp
  | cons a l ih => simp only [List.map_cons, List.sum_cons, ih]; ring

/-- the shares given to a duplicate-free sub-list of a duplicate-free list -/
theorem sum_indicator {l W : List Kind} (x : Rat) (hl : l.Nodup) (hW : W.Nodup) (hs : ∀ k ∈ W, k ∈ l) :
    (l.map (fun k => if k ∈ W then x else 0)).sum = W.length * x := by
  have h1 : (l.map (fun k => if k ∈ W then x else 0)).sum = ((l.filter (fun k => decide (k ∈ W))).length : Rat) * x := by
    clear hl hs
    induction l with
    | nil => simp
    | cons a l ih =>
      simp only [List.map_cons, List.sum_cons, ih, List.filter_cons]
      by_cases h : a ∈ W <;> simp [h]
      ring
  have h2 : (l.filter (fun k => decide (k ∈ W))).Perm W := by
    rw [List.perm_ext_iff_of_nodup (hl.filter _) hW]
    intro k
    simp only [List.mem_filter, decide_eq_true_eq]
    exact ⟨fun h => h.2, fun h => ⟨hs k h, h⟩⟩
  rw [h1, h2.length_eq]

theorem winners_sub (hand : TileSet) (ts : List Tile) : ∀ k ∈ winners hand ts, k ∈ heldList hand :=
  fun _ h => (List.mem_filter.1 h).1

theorem mem_winners {hand : TileSet} {ts : List Tile} {k : Kind} :
    k ∈ winners hand ts ↔ k ∈ heldList hand ∧ Completes hand k ts := by
  simp [winners]

theorem share_sum {hand : TileSet} (hh : HandOK hand) (ts : List Tile) :
    ((heldList hand).map (fun k => if k ∈ winners hand ts then 1 / ((winners hand ts).length : Rat) else 0)).sum =
      if winners hand ts = [] then 0 else 1 := by
  rw [sum_indicator _ (heldList_nodup hh) (winners_nodup hh ts) (winners_sub hand ts)]
  split
  · rename_i h; simp [h]
  · rename_i h
    have : ((winners hand ts).length : Rat) ≠ 0 := by
      simpa using h
    field_simp


theorem deck_ok : HandOK (Counter.ofIter (ALL_TILES ++ ALL_TILES ++ ALL_TILES ++ ALL_TILES)) :=
  HandOK_ofIter (by
    have : ∀ t ∈ ALL_TILES, RealTile t := by decide
    intro t ht
    simp only [List.mem_append] at ht
    rcases ht with ((h | h) | h) | h <;> exact this t h)

theorem remain_ok {hand : TileSet} (hh : HandOK hand) : HandOK (remainTiles hand) := HandOK_sub deck_ok hh

theorem content_remain {hand : TileSet} (hh : HandOK hand) (k : Kind) :
    content (remainTiles hand) k = if ValidKind k then max 0 (4 - content hand k) else 0 := by
  have h0 := hh.get_nonneg k
  have hc : allKinds.count k = if ValidKind k then 1 else 0 := by
    split
    · rename_i hk
      exact List.count_eq_one_of_mem nodup_allKinds (mem_allKinds.2 hk)
    · rename_i hk
      exact List.count_eq_zero.2 (fun hm => hk (mem_allKinds.1 hm))
  unfold remainTiles content
  rw [get_sub deck_ok.1 hh.1, get_ofIter']
  simp only [List.map_append, List.count_append, allTiles_views, hc]
  split <;> omega


theorem sum_replace_one {l : List Kind} {c : Kind} (hn : l.Nodup) (hc : c ∈ l) (g : Kind → Rat) (A f : Rat) :
    (l.map (fun r => if r = c then A else g r * f)).sum = A + ((l.map g).sum - g c) * f := by
  induction l with
  | nil => simp at hc
  | cons a l ih =>
    simp only [List.nodup_cons] at hn
    simp only [List.map_cons, List.sum_cons]
    by_cases h : a = c
    · subst h
      have : (l.map (fun r => if r = a then A else g r * f)).sum = (l.map g).sum * f := by
        have hnot := hn.1
        clear ih hc hn
        induction l with
        | nil => simp
        | cons b l ih =>
          simp only [List.mem_cons, not_or] at hnot
          simp only [List.map_cons, List.sum_cons, ih hnot.2, if_neg (fun h : b = a => hnot.1 h.symm)]
          ring
      rw [this]; simp
    · rw [ih hn.2 (by rcases List.mem_cons.1 hc with h' | h'; exact absurd h'.symm h; exact h')]
      simp only [h, if_false]
      ring

theorem sum_nonneg_rat {l : List Kind} {g : Kind → Rat} (h : ∀ k ∈ l, 0 ≤ g k) : 0 ≤ (l.map g).sum := by
  induction l with
  | nil => simp
  | cons a l ih =>
    simp only [List.map_cons, List.sum_cons]
    have := ih (fun k hk => h k (by simp [hk]))
    have := h a (by simp)
    linarith

theorem le_sum_rat {l : List Kind} {g : Kind → Rat} (h : ∀ k ∈ l, 0 ≤ g k) {c : Kind} (hc : c ∈ l) :
    g c ≤ (l.map g).sum := by
  induction l with
  | nil => simp at hc
  | cons a l ih =>
    simp only [List.map_cons, List.sum_cons]
    have h1 := sum_nonneg_rat (fun k hk => h k (List.mem_cons_of_mem a hk))
    have h2 := h a (by simp)
    rcases List.mem_cons.1 hc with rfl | hc
    · linarith
    · have := ih (fun k hk => h k (by simp [hk])) hc
      linarith

theorem two_le_sum_int {l : List Kind} {g : Kind → Int} (h : ∀ k ∈ l, 0 ≤ g k) {c d : Kind} (hc : c ∈ l) (hd : d ∈ l)
    (hne : d ≠ c) : g c + g d ≤ (l.map g).sum := by
  have hle : ∀ (l : List Kind), (∀ k ∈ l, 0 ≤ g k) → ∀ c ∈ l, g c ≤ (l.map g).sum := by
    intro l
    induction l with
    | nil => simp
    | cons a l ih =>
      intro h c hc
      have h1 : 0 ≤ (l.map g).sum := by
        clear ih hc
        induction l with
        | nil => simp
        | cons b l ih => 
          have := ih (fun k hk => h k (by simp at hk ⊢; tauto))
          have := h b (by simp)
          simp only [List.map_cons, List.sum_cons]; omega
      have h2 := h a (by simp)
      simp only [List.map_cons, List.sum_cons]
      rcases List.mem_cons.1 hc with rfl | hc
      · omega
      · have := ih (fun k hk => h k (by simp [hk])) c hc
        omega
  induction l with
  | nil => simp at hc
  | cons a l ih =>
    simp only [List.map_cons, List.sum_cons]
    have h2 := h a (by simp)
    have hl : ∀ k ∈ l, 0 ≤ g k := fun k hk => h k (by simp [hk])
    rcases List.mem_cons.1 hc with hc' | hc' <;> rcases List.mem_cons.1 hd with hd' | hd'
    · exact absurd (hd'.trans hc'.symm) hne
    · have := hle l hl d hd'; rw [hc']; omega
    · have := hle l hl c hc'; rw [hd']; omega
    · have := ih hl hc' hd'; omega

theorem sum_int_eq_single {l : List Kind} {g : Kind → Int} (hn : l.Nodup) {c : Kind} (hc : c ∈ l)
    (h : ∀ k ∈ l, k ≠ c → g k = 0) : (l.map g).sum = g c := by
  induction l with
  | nil => simp at hc
  | cons a l ih =>
    simp only [List.nodup_cons] at hn
    simp only [List.map_cons, List.sum_cons]
    rcases List.mem_cons.1 hc with rfl | hc'
    · have : ∀ (l : List Kind), (∀ k ∈ l, g k = 0) → (l.map g).sum = 0 := by
        intro l; induction l with
        | nil => simp
        | cons b l ih => intro h; simp [h b (by simp), ih (fun k hk => h k (by simp [hk]))]
      rw [this l (fun k hk => h k (by simp [hk]) (fun e => hn.1 (e ▸ hk)))]; omega
    · rw [ih hn.2 hc' (fun k hk => h k (by simp [hk])), h a (by simp) (fun e => hn.1 (e ▸ hc'))]; omega

theorem sum_rat_eq_single {l : List Kind} {g : Kind → Rat} (hn : l.Nodup) {c : Kind} (hc : c ∈ l)
    (h : ∀ k ∈ l, k ≠ c → g k = 0) : (l.map g).sum = g c := by
  have := sum_replace_one hn hc (fun _ => 0) (g c) 0
  simp only [mul_zero, add_zero] at this
  rw [← this]
  congr 1
  apply List.map_congr_left
  intro k hk
  split
  · rename_i e; rw [e]
  · rename_i e; exact h k hk e

end Verif.Proofs
