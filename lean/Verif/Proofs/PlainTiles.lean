import Verif.Proofs.HeurTop

/-! The tile objects the analyses report: plain tiles, or key objects of the hand. -/
namespace Verif.Proofs
open Verif.Py Verif.Model Verif.Spec

/-- all key objects satisfy `S` -/
def KeysIn (S : Tile → Prop) (c : TileSet) : Prop := ∀ e ∈ c, S e.1

variable {S : Tile → Prop}

theorem keysIn_set {c : TileSet} (h : KeysIn S c) {t : Tile} (ht : S t) (n : Int) : KeysIn S (Counter.set c t n) := by
  induction c with
  | nil =>
    intro e he
    simp only [Counter.set, List.mem_singleton] at he
    subst he; exact ht
  | cons x c ih =>
    obtain ⟨b, m⟩ := x
    have hb : S b := h (b, m) (by simp)
    have hc : KeysIn S c := fun e he => h e (by simp [he])
    intro e he
    simp only [Counter.set] at he
    split at he
    · rcases List.mem_cons.1 he with rfl | he
      · exact hb
      · exact hc e he
    · rcases List.mem_cons.1 he with rfl | he
      · exact hb
      · exact ih hc e he

theorem keysIn_subtract {c d : TileSet} (h : KeysIn S c) (hd : KeysIn S d) : KeysIn S (Counter.subtract c d) := by
  unfold Counter.subtract
  induction d generalizing c with
  | nil => exact h
  | cons x d ih =>
    rw [List.foldl_cons]
    exact ih (keysIn_set h (hd x (by simp)) _) (fun e he => hd e (by simp [he]))

theorem keysIn_filter {c : TileSet} (h : KeysIn S c) (q : Tile × Int → Bool) : KeysIn S (c.filter q) :=
  fun e he => h e (List.mem_filter.1 he).1

theorem keysIn_neg {c : TileSet} (h : KeysIn S c) : KeysIn S (Counter.neg c) := by
  intro e he
  unfold Counter.neg at he
  obtain ⟨x, hx, hx'⟩ := List.mem_filterMap.1 he
  split at hx'
  · cases hx'; exact h x hx
  · cases hx'

theorem keysIn_reSort {c : TileSet} (h : KeysIn S c) : KeysIn S (reSort c) :=
  fun e he => h e ((reSort_perm c).mem_iff.1 he)

theorem keysIn_unitOf (hS : ∀ t : Tile, t.aka = false → S t) (g : Group) : KeysIn S (unitOf g) := by
  intro e he
  apply hS
  cases g <;> simp only [unitOf, List.mem_cons, List.not_mem_nil, or_false] at he
  · subst he; rfl
  · rcases he with rfl | rfl | rfl <;> rfl
  · subst he; rfl

theorem keysIn_nextStates (hS : ∀ t : Tile, t.aka = false → S t) {w : Pattern} {t : Tile} (ht : RealTile t)
    {e : TileSet × Pattern} (he : e ∈ w.nextStates t) : KeysIn S e.1 := by
  obtain ⟨u, w'⟩ := e
  obtain ⟨g, _, _, _, rfl⟩ := (mem_nextStates ht).1 he
  exact keysIn_unitOf hS g

theorem hUnits_keys (hS : ∀ t : Tile, t.aka = false → S t) {w : Pattern}
    {rec : TileSet → Pattern → Int → List HRes × Int} {hand : TileSet} (hh : KeysIn S hand)
    (hrec : ∀ hand' w' m r, KeysIn S hand' → r ∈ (rec hand' w' m).1 → KeysIn S r.borrowed)
    {basic mu can : Int} {t : Tile} (ht : RealTile t) (es : List (TileSet × Pattern))
    (hes : ∀ e ∈ es, e ∈ w.nextStates t) (m : Int) {r : HRes}
    (hr : r ∈ (hUnits rec hand basic mu can es m).1) : KeysIn S r.borrowed := by
  induction es generalizing m with
  | nil => simp [hUnits] at hr
  | cons e es ih =>
    simp only [hUnits] at hr
    split at hr
    · simp only [List.mem_append] at hr
      rcases hr with hr | hr
      · obtain ⟨r', hr', rfl⟩ := List.mem_map.1 hr
        split at hr'
        · exact (hrec _ _ _ r' (keysIn_subtract hh (keysIn_nextStates hS ht (hes e (by simp)))) hr' :)
        · simp at hr'
      · exact ih (fun e he => hes e (by simp [he])) _ hr
    · simp at hr

theorem hTiles_keys (hS : ∀ t : Tile, t.aka = false → S t) {w : Pattern}
    {rec : (Nat → List Tile) → TileSet → Pattern → Int → List HRes × Int} {hand : TileSet}
    (hh : KeysIn S hand) {groups : Nat → List Tile} (hgr : ∀ k, RealTiles (groups k))
    (hrec : ∀ gr hand' w' m r, (∀ k, RealTiles (gr k)) → KeysIn S hand' → r ∈ (rec gr hand' w' m).1 →
      KeysIn S r.borrowed)
    {basic mu : Int} {can : Nat} (l : List Tile) (hl : RealTiles l) (m : Int) {r : HRes}
    (hr : r ∈ (hTiles rec w groups hand basic mu can l m).1) : KeysIn S r.borrowed := by
  induction l generalizing m with
  | nil => simp [hTiles] at hr
  | cons t rest ih =>
    have h1 := fun (r : HRes) (hr : r ∈ (hUnits (rec (fun i => if i = can then t :: rest else groups i))
        hand basic mu can (w.nextStates t) m).1) => hUnits_keys hS hh
      (fun hand' w' m r => hrec _ hand' w' m r (by
        intro k
        show RealTiles (if k = can then t :: rest else groups k)
        split
        · exact hl
        · exact hgr k)) (hl t (by simp)) (w.nextStates t) (fun _ h => h) m hr
    simp only [hTiles] at hr
    split at hr
    · exact h1 r hr
    · rcases List.mem_append.1 hr with hr | hr
      · exact h1 r hr
      · exact ih (fun x hx => hl x (by simp [hx])) _ hr

theorem hStages_keys (hS : ∀ t : Tile, t.aka = false → S t) {w : Pattern}
    {rec : Nat → (Nat → List Tile) → TileSet → Pattern → Int → List HRes × Int} {hand : TileSet}
    (hh : KeysIn S hand) {groups : Nat → List Tile} (hgr : ∀ k, RealTiles (groups k))
    (hrec : ∀ st gr hand' w' m r, (∀ k, RealTiles (gr k)) → KeysIn S hand' → r ∈ (rec st gr hand' w' m).1 →
      KeysIn S r.borrowed)
    {basic : Int} (cans : List Nat) (m : Int) {r : HRes}
    (hr : r ∈ (hStages rec w groups hand basic cans m).1) : KeysIn S r.borrowed := by
  induction cans generalizing m with
  | nil => simp [hStages] at hr
  | cons can rest ih =>
    simp only [hStages] at hr
    split at hr
    · exact hTiles_keys hS hh hgr (hrec can) (groups can) (hgr can) m hr
    · rcases List.mem_append.1 hr with hr | hr
      · exact hTiles_keys hS hh hgr (hrec can) (groups can) (hgr can) m hr
      · exact ih _ hr

theorem hSel_keys (hS : ∀ t : Tile, t.aka = false → S t) {ig : Bool} {limits : TileSet} {pr : Int} (fuel : Nat) :
    ∀ stage groups hand w m r, (∀ k, RealTiles (groups k)) → KeysIn S hand →
      r ∈ (hSel ig limits pr fuel stage groups hand w m).1 → KeysIn S r.borrowed := by
  induction fuel with
  | zero => intro stage groups hand w m r _ _ hr; simp [hSel] at hr
  | succ fuel ih =>
    intro stage groups hand w m r hgr hh hr
    simp only [hSel] at hr
    split at hr
    · simp at hr
    · split at hr
      · simp only [List.mem_singleton] at hr
        subst hr
        exact keysIn_neg hh
      · exact hStages_keys hS hh hgr (fun st gr hand' w' m r => ih st gr hand' w' m r) _ m hr

theorem heurCombos_keys (hS : ∀ t : Tile, t.aka = false → S t) {w : Pattern} {ig : Bool} {hand : TileSet}
    (hh : KeysIn S hand) {n : Int} {r : HRes} (hr : r ∈ (heurCombos w ig hand n).1) : KeysIn S r.borrowed :=
  hSel_keys hS _ _ _ _ _ _ _ (fun k => (start_initBorrows w hand k).real) (keysIn_reSort hh) hr

/-- the useful tiles of `waiting_and_useful_tiles` -/
theorem heurWaitingUseful_keys (hS : ∀ t : Tile, t.aka = false → S t) {s : Int} {w : Pattern} {ig : Bool} {hand : TileSet}
    (hh : KeysIn S hand) {n : Int} {u : List Tile} (h : heurWaitingUseful s w ig hand = .ok (n, u)) :
    ∀ t ∈ u, S t := by
  unfold heurWaitingUseful at h
  cases hb : (heurBefore s w true hand).1 with
  | error e => rw [hb] at h; cases h
  | ok m =>
    rw [hb] at h
    simp only [Except.map, Except.ok.injEq, Prod.mk.injEq] at h
    obtain ⟨rfl, rfl⟩ := h
    intro t ht
    rcases mem_setUpdate_tile ht with h | h
    · simp at h
    · obtain ⟨r, hr, hm⟩ := List.mem_flatMap.1 h
      obtain ⟨e, he, rfl⟩ := List.mem_map.1 hm
      exact heurCombos_keys hS (keysIn_reSort hh) hr e he

theorem dropUpdate_keys {acc : List (Tile × List Tile)} {Q : Tile → Prop} (h : ∀ e ∈ acc, Q e.1 ∧ ∀ t ∈ e.2, S t)
    {t : Tile} (ht : Q t) {bs : List Tile} (hb : ∀ t ∈ bs, S t) :
    ∀ e ∈ dropUpdate acc t bs, Q e.1 ∧ ∀ t ∈ e.2, S t := by
  induction acc with
  | nil =>
    intro e he
    simp only [dropUpdate, List.mem_singleton] at he
    subst he
    refine ⟨ht, fun x hx => ?_⟩
    rcases mem_setUpdate_tile hx with h | h
    · simp at h
    · exact hb x h
  | cons a acc ih =>
    obtain ⟨a, s⟩ := a
    intro e he
    simp only [dropUpdate] at he
    have ha := h (a, s) (by simp)
    split at he
    · rcases List.mem_cons.1 he with rfl | he
      · refine ⟨ha.1, fun x hx => ?_⟩
        rcases mem_setUpdate_tile hx with h | h
        · exact ha.2 x h
        · exact hb x h
      · exact h e (by simp [he])
    · rcases List.mem_cons.1 he with rfl | he
      · exact ha
      · exact ih (fun e he => h e (by simp [he])) e he

theorem keysIn_units_add (hS : ∀ t : Tile, t.aka = false → S t) (us : List TileSet) (h : ∀ u ∈ us, KeysIn S u)
    (c : TileSet) (hc : KeysIn S c) : KeysIn S (us.foldl TileSet.add c) := by
  induction us generalizing c with
  | nil => exact hc
  | cons u us ih =>
    rw [List.foldl_cons]
    refine ih (fun u hu => h u (by simp [hu])) _ ?_
    unfold TileSet.add Counter.iadd Counter.keepPositive Counter.addLoop
    apply keysIn_reSort; apply keysIn_filter
    have hu := h u (by simp)
    clear h
    induction u generalizing c with
    | nil => exact hc
    | cons x u ihu =>
      rw [List.foldl_cons]
      exact ihu _ (keysIn_set hc (hu x (by simp)) _) (fun e he => hu e (by simp [he]))

/-- discards and useful tiles of `batch_waiting_and_useful_tiles` -/
theorem heurBatch_keys (hS : ∀ t : Tile, t.aka = false → S t) {s : Int} {w : Pattern} {hand : TileSet}
    (hok : HandOK hand) (hh : KeysIn S hand) {l : List (Tile × Int × List Tile)} (h : heurBatch s w true hand = .ok l) :
    ∀ e ∈ l, S e.1 ∧ ∀ t ∈ e.2.2, S t := by
  unfold heurBatch at h
  rcases heurBefore_cases s (w := w) (ig := true) hok with ⟨h1, _⟩ | ⟨m, h1, h2, _⟩
  · rw [h1] at h; cases h
  · rw [h1] at h
    simp only [Except.map, Except.ok.injEq] at h
    have hn : IsStep true w (content (reSort hand)) m := by rw [content_reSort' hok]; exact h2
    subst h
    have key : ∀ (rs : List HRes), (∀ r ∈ rs, r ∈ (heurCombos w true (reSort hand) m).1) →
        ∀ acc : List (Tile × List Tile), (∀ e ∈ acc, S e.1 ∧ ∀ t ∈ e.2, S t) →
        ∀ e ∈ rs.foldl (batchStep (reSort hand)) acc, S e.1 ∧ ∀ t ∈ e.2, S t := by
      intro rs
      induction rs with
      | nil => intro _ acc h; exact h
      | cons r rs ih =>
        intro hrs acc hacc
        rw [List.foldl_cons]
        refine ih (fun r hr => hrs r (by simp [hr])) _ ?_
        have hb := heurCombos_keys hS (keysIn_reSort hh) (hrs r (by simp))
        obtain ⟨D, _, _, hu, _⟩ := heurCombos_sound (HandOK.reSort' hok) hn (hrs r (by simp))
        unfold batchStep
        simp only
        have hs : KeysIn S (TileSet.sub (reSort hand) (r.units.foldl TileSet.add [])) := by
          unfold TileSet.sub Counter.isub Counter.keepPositive
          apply keysIn_filter
          refine keysIn_subtract (keysIn_reSort hh) ?_
          refine keysIn_units_add hS _ ?_ [] (by intro e he; simp at he)
          intro u hu'
          rw [hu] at hu'
          obtain ⟨g, _, rfl⟩ := List.mem_map.1 hu'
          exact keysIn_unitOf hS g
        generalize TileSet.sub (reSort hand) (r.units.foldl TileSet.add []) = c at hs ⊢
        induction c generalizing acc with
        | nil => exact hacc
        | cons x c ihc =>
          rw [List.foldl_cons]
          refine ihc _ (dropUpdate_keys hacc (hs x (by simp)) ?_) (fun e he => hs e (by simp [he]))
          intro t ht
          obtain ⟨e, he, rfl⟩ := List.mem_map.1 ht
          exact hb e he
    intro e he
    obtain ⟨x, hx, rfl⟩ := List.mem_map.1 he
    exact key _ (fun r hr => hr) [] (by simp) x hx

end Verif.Proofs
