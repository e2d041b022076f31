import Verif.Spec.Play
import Verif.Props.Waiting
import Verif.Proofs.Bounds

/-!
C78: the waiting step is the number of turns a player needs, and the advice of the analyses gets there.
-/
namespace Verif.Props
open Verif.Py Verif.Model Verif.Spec Verif.Proofs

theorem winSize_eq {w : Pattern} {D : List Group} (hl : Legal w D) : winSize w = sumK (need D) := by
  have := hl.needCount
  cases w <;> simp only [winSize, Pattern.needCount] at * <;> omega

theorem after_ok {h g : Kind → Int} {n : Nat} (ha : After h n g) (h0 : ∀ k, 0 ≤ h k) (h4 : AtMostFour h) :
    (∀ k, 0 ≤ g k) ∧ AtMostFour g := by
  induction ha with
  | start => exact ⟨h0, h4⟩
  | draw t _ _ hlt ih =>
    refine ⟨fun k => ?_, fun k => ?_⟩ <;> have := ih.1 k <;> have := ih.2 k <;> simp only [plus] <;> split
    all_goals (try subst k); omega
  | discard t _ hlt ih =>
    refine ⟨fun k => ?_, fun k => ?_⟩ <;> have := ih.1 k <;> have := ih.2 k <;> simp only [minus] <;> split
    all_goals (try subst k); omega

/-- every draw lowers the number of missing tiles by at most one, a discard never does. -/
theorem after_deficit {h g : Kind → Int} {n : Nat} (ha : After h n g) {D : List Group} (hp : ∀ e ∈ D, e.Proper)
    (h0 : ∀ k, 0 ≤ h k) (h4 : AtMostFour h) : deficit D h ≤ deficit D g + n := by
  induction ha with
  | start => omega
  | @draw n g t hg ht hlt ih =>
    by_cases hn : g t < need D t
    · rw [deficit_plus_pos ht hn]; push_cast; omega
    · rw [deficit_plus_neg (by omega)]; push_cast; omega
  | @discard n g t hg hpos ih =>
    by_cases hn : need D t < g t
    · rw [deficit_minus_pos hn]; omega
    · by_cases hv : ValidKind t
      · rw [deficit_minus_neg hv (by omega)]; omega
      · have := need_invalid hp hv
        omega

theorem sumK_plus (h : Kind → Int) {t : Kind} (ht : ValidKind t) : sumK (plus h t) = sumK h + 1 := by
  rw [← sumK_single ht, ← sumK_add]
  refine sumK_congr (fun k _ => ?_)
  unfold plus; split <;> simp

theorem sumK_minus (h : Kind → Int) {t : Kind} (ht : ValidKind t) : sumK (minus h t) = sumK h - 1 := by
  have := sumK_plus (minus h t) ht
  rw [minus_plus] at this; omega

/-- a hand that lacks tiles of a win and is at least as large as the win holds a tile the win does not need. -/
theorem exists_spare {h : Kind → Int} {D : List Group} (hd : 0 < deficit D h) (hs : sumK (need D) ≤ sumK h) :
    ∃ k, ValidKind k ∧ need D k < h k := by
  apply Classical.byContradiction
  intro hno
  have hle : ∀ k, ValidKind k → h k ≤ need D k := fun k hk => by
    by_cases hc : need D k < h k
    · exact absurd ⟨k, hk, hc⟩ hno
    · omega
  have h1 : deficit D h = sumK (fun k => need D k - h k) := by
    unfold deficit
    exact sumK_congr (fun k hk => by have := hle k hk; omega)
  rw [sumK_sub] at h1
  have e1 : sumK (fun k => need D k) = sumK (need D) := rfl
  have e2 : sumK (fun k => h k) = sumK h := rfl
  omega

theorem exists_missing {h : Kind → Int} {D : List Group} (hd : 0 < deficit D h) :
    ∃ k, ValidKind k ∧ h k < need D k := by
  apply Classical.byContradiction
  intro hno
  have : deficit D h ≤ sumK (fun _ => 0) := by
    refine sumK_mono (fun k hk => ?_)
    by_cases hc : h k < need D k
    · exact absurd ⟨k, hk, hc⟩ hno
    · omega
  rw [sumK_zero] at this; omega

/-- closing in on one complete win, a turn at a time. -/
theorem turns_to {D : List Group} (hp : ∀ e ∈ D, e.Proper) (hf : ∀ k, need D k ≤ 4) (n : Nat) :
    ∀ {h g : Kind → Int} {m : Nat}, Turns h m g → (∀ k, 0 ≤ g k) → AtMostFour g → deficit D g = n + 1 →
      sumK (need D) ≤ sumK g + 1 →
      ∃ g', Turns h (m + n) g' ∧ (∀ k, 0 ≤ g' k) ∧ AtMostFour g' ∧ sumK g' = sumK g ∧ deficit D g' = 1 := by
  induction n with
  | zero => exact fun {h g m} ht h0 h4 hd _ => ⟨g, ht, h0, h4, rfl, by omega⟩
  | succ n ih =>
    intro h g m ht h0 h4 hd hs
    obtain ⟨t, tv, tm⟩ := exists_missing (h := g) (D := D) (by omega)
    have d1 := deficit_plus_pos tv tm
    have s1 := sumK_plus g tv
    obtain ⟨d, dv, ds⟩ := exists_spare (h := plus g t) (D := D) (by omega) (by omega)
    have hfd := hf t
    have hnd := need_nonneg D d
    have d2 := deficit_minus_pos ds
    have s2 := sumK_minus (plus g t) dv
    have p0 : ∀ k, 0 ≤ plus g t k := fun k => by have := h0 k; unfold plus; split <;> omega
    have p4 : ∀ k, plus g t k ≤ 4 := fun k => by
      have := h4 k; unfold plus; split
      · subst k; omega
      · omega
    obtain ⟨g', a, b, c, e, f⟩ := ih (Turns.turn t d ht tv (by omega) (by omega))
      (fun k => by
        have := p0 k; show 0 ≤ minus (plus g t) d k; simp only [minus]; split
        · subst k; omega
        · omega)
      (fun k => by have := p4 k; show minus (plus g t) d k ≤ 4; simp only [minus]; split <;> omega)
      (by omega) (by omega)
    exact ⟨g', by rw [Nat.add_succ, ← Nat.succ_add]; exact a, b, c, by omega, f⟩

theorem step_is_turns {w : Pattern} {h : Kind → Int} {n : Int} (h0 : ∀ k, 0 ≤ h k) (h4 : AtMostFour h)
    (hst : IsStep true w h n) :
    (∀ m g, After h m g → Wins w g → n + 1 ≤ m) ∧
    (0 ≤ n → winSize w ≤ sumK h + 1 →
      ∃ g t, Turns h n.toNat g ∧ ValidKind t ∧ g t < 4 ∧ Wins w (plus g t)) := by
  refine ⟨fun m g ha hw => ?_, fun hn hs => ?_⟩
  · obtain ⟨D, hD, hfit⟩ := hw
    obtain ⟨g0, g4⟩ := after_ok ha h0 h4
    have h1 := after_deficit ha hD.proper h0 h4
    have h2 := (deficit_zero_iff hD.proper g0).2 hfit
    have h3 := hst.2 D hD (fun _ k => Int.le_trans (hfit k) (g4 k))
    omega
  · obtain ⟨⟨D, hD, hf, hd⟩, _⟩ := hst
    rw [winSize_eq hD] at hs
    obtain ⟨g, a, b, c, e, f⟩ := turns_to hD.proper (hf rfl) n.toNat .start h0 h4 (by omega) hs
    obtain ⟨t, tv, tm⟩ := exists_missing (h := g) (D := D) (by omega)
    have d1 := deficit_plus_pos tv tm
    have hf4 := hf rfl t
    refine ⟨g, t, by simpa using a, tv, by omega, D, hD, (deficit_zero_iff hD.proper (fun k => ?_)).1 (by omega)⟩
    have := b k; unfold plus; split <;> omega

/-- **C78.** The step plus one is exactly the number of draws: whatever is drawn and discarded, a hand at step `n`
    wins with no fewer than `n + 1` draws, and there is a play of `n` ordinary turns after which one more
    tile wins. -/
theorem C78_turns (w : Pattern) (hand : TileSet) (hh : HandOK hand) (h4 : AtMostFour (content hand)) (s n : Int)
    (h : (heurBefore s w true hand).1 = .ok n) :
    (∀ draws held, After (content hand) draws held → Wins w held → n + 1 ≤ draws) ∧
    (0 ≤ n → winSize w ≤ TileSet.len hand + 1 →
      ∃ held t, Turns (content hand) n.toNat held ∧ ValidKind t ∧ held t < 4 ∧ Wins w (plus held t)) := by
  have hlen : TileSet.len hand = sumK (content hand) := total_eq_sumK hh.1 hh.2.1
  rw [hlen]
  exact step_is_turns hh.get_nonneg h4 ((heurBefore_spec s hh n).1 h).1

/-- **C78.** The same number for the two other analyses. -/
theorem C78_turns_others (w : Pattern) (hand : TileSet) (hh : HandOK hand) (h4 : AtMostFour (content hand)) (n : Int)
    (h : (∃ fuel, pmBefore w true fuel hand = some n) ∨ ∃ fuel, bruteBefore w true fuel hand = some n) :
    (∀ draws held, After (content hand) draws held → Wins w held → n + 1 ≤ draws) ∧
    (0 ≤ n → winSize w ≤ TileSet.len hand + 1 →
      ∃ held t, Turns (content hand) n.toNat held ∧ ValidKind t ∧ held t < 4 ∧ Wins w (plus held t)) := by
  have hlen : TileSet.len hand = sumK (content hand) := total_eq_sumK hh.1 hh.2.1
  rw [hlen]
  refine step_is_turns hh.get_nonneg h4 ?_
  rcases h with ⟨f, h⟩ | ⟨f, h⟩
  · exact ((pmBefore_spec hh f n).1 h).1
  · exact ((bruteBefore_step hh h4 f n).1 h).1

/-- **C78.** The useful tiles of a ready hand (step 0) are exactly the tiles it wins with. -/
theorem C78_waits (w : Pattern) (hand : TileSet) (hh : HandOK hand) (h4 : AtMostFour (content hand)) (s : Int)
    (u : List Tile) (h : heurWaitingUseful s w true hand = .ok (0, u)) (k : Kind) :
    k ∈ u.map Tile.view ↔ ValidKind k ∧ content hand k < 4 ∧ Wins w (plus (content hand) k) := by
  obtain ⟨h1, _, h3⟩ := C17_heuristic_useful w hand hh s 0 u h
  rw [h3]
  have p0 : ∀ j, 0 ≤ plus (content hand) k j := fun j => by
    have := hh.get_nonneg j
    have : 0 ≤ content hand j := this
    unfold plus; split <;> omega
  constructor
  · rintro ⟨a, b, n, n', c, d, e⟩
    have := c.unique h1
    have := d.ge
    have e' : n' = -1 := by omega
    subst e'
    exact ⟨a, b, wins_of_neg_one p0 d⟩
  · rintro ⟨a, b, c⟩
    exact ⟨a, b, 0, -1, h1, neg_one_of_wins p0 (fun _ => atMostFour_plus h4 b) c, by omega⟩

/-- **C78.** A hand that is not won and has at least as many tiles as the win can always discard without losing
    ground: the batch analysis lists a discard. -/
theorem C78_some_discard (w : Pattern) (hand : TileSet) (hh : HandOK hand) (s n : Int)
    (h : (heurBefore s w true hand).1 = .ok n) (h0 : 0 ≤ n) (hsize : winSize w ≤ TileSet.len hand) (s' : Int)
    (l : List (Tile × Int × List Tile)) (hl : heurBatch s' w true hand = .ok l) : l ≠ [] := by
  have hlen : TileSet.len hand = sumK (content hand) := total_eq_sumK hh.1 hh.2.1
  have hst := ((heurBefore_spec s hh n).1 h).1
  obtain ⟨m, h1, _, h3, _⟩ := C18_batch w hand hh s' l hl
  have hm := h1.unique hst
  subst hm
  obtain ⟨⟨D, hD, hf, hd⟩, _⟩ := id hst
  rw [winSize_eq hD, hlen] at hsize
  obtain ⟨k, kv, ks⟩ := exists_spare (h := content hand) (D := D) (by omega) hsize
  have := need_nonneg D k
  have hk := (h3 k).2 ⟨by omega, (isStep_minus_iff hst kv).2 ⟨D, hD, hf, hd, ks⟩⟩
  rintro rfl
  simp at hk

/-- **C78.** Following the advice always makes progress: draw any useful tile, then discard any tile the batch
    analysis lists; the hand has as many tiles as before and is one step nearer. -/
theorem C78_progress (w : Pattern) (hand : TileSet) (hh : HandOK hand) (s n : Int) (u : List Tile)
    (h : heurWaitingUseful s w true hand = .ok (n, u)) (t : Tile) (ht : RealTile t) (hu : t.view ∈ u.map Tile.view)
    (s' : Int) (l : List (Tile × Int × List Tile))
    (hl : heurBatch s' w true (TileSet.add hand (Counter.ofIter [t])) = .ok l) :
    (∀ e ∈ l, e.2.1 = n - 1 ∧
      IsStep true w (content (TileSet.sub (TileSet.add hand (Counter.ofIter [t])) (Counter.ofIter [e.1]))) (n - 1) ∧
      TileSet.len (TileSet.sub (TileSet.add hand (Counter.ofIter [t])) (Counter.ofIter [e.1])) = TileSet.len hand) ∧
    (1 ≤ n → winSize w ≤ TileSet.len hand + 1 → l ≠ []) := by
  have hone : HandOK (Counter.ofIter [t]) := HandOK_ofIter (by simpa using ht)
  have hok : HandOK (TileSet.add hand (Counter.ofIter [t])) := HandOK_add hh hone
  obtain ⟨h1, _, h3⟩ := C17_heuristic_useful w hand hh s n u h
  obtain ⟨_, _, a, b, ha, hb, hlt⟩ := (h3 t.view).1 hu
  have hb' := isStep_plus ht.1 ha hb
  have ea := ha.unique h1
  have eb : b = n - 1 := by omega
  subst eb
  have hc : content (TileSet.add hand (Counter.ofIter [t])) = plus (content hand) t.view := content_add_one hh t
  have hlen : TileSet.len hand = sumK (content hand) := total_eq_sumK hh.1 hh.2.1
  have hlen2 : TileSet.len (TileSet.add hand (Counter.ofIter [t])) = TileSet.len hand + 1 := by
    show Counter.total _ = _
    rw [total_eq_sumK hok.1 hok.2.1, hlen]
    exact (congrArg sumK hc).trans (sumK_plus _ ht.1)
  rw [← hc] at hb
  obtain ⟨m, k1, _, k3, k4⟩ := C18_batch w _ hok s' l hl
  have em := k1.unique hb
  subst em
  obtain ⟨_, _, _, _, hreal, _⟩ := heurBatch_spec hok hl
  refine ⟨fun e he => ?_, fun hn hs => ?_⟩
  · obtain ⟨hpos, hst⟩ := (k3 e.1.view).1 (List.mem_map.2 ⟨e, he, rfl⟩)
    have hr := (hreal e he).2.1
    have hok' : HandOK (TileSet.sub (TileSet.add hand (Counter.ofIter [t])) (Counter.ofIter [e.1])) :=
      HandOK_sub hok (HandOK_ofIter (by simpa using hr))
    have hcs := content_sub_one hok e.1 hpos
    refine ⟨(k4 e he).1, by rw [hcs]; exact hst, ?_⟩
    show Counter.total _ = _
    rw [total_eq_sumK hok'.1 hok'.2.1]
    refine (congrArg sumK hcs).trans ?_
    rw [sumK_minus _ hr.1]
    have : sumK (content (TileSet.add hand (Counter.ofIter [t]))) = TileSet.len (TileSet.add hand (Counter.ofIter [t])) :=
      (total_eq_sumK hok.1 hok.2.1).symm
    omega
  · obtain ⟨⟨D, hD, hf, hd⟩, _⟩ := id hb
    have hl' : sumK (content (TileSet.add hand (Counter.ofIter [t]))) = TileSet.len (TileSet.add hand (Counter.ofIter [t])) :=
      (total_eq_sumK hok.1 hok.2.1).symm
    rw [winSize_eq hD] at hs
    obtain ⟨k, kv, ks⟩ := exists_spare (h := content (TileSet.add hand (Counter.ofIter [t]))) (D := D) (by omega) (by omega)
    have := need_nonneg D k
    have hk := (k3 k).2 ⟨by omega, (isStep_minus_iff hb kv).2 ⟨D, hD, hf, hd, ks⟩⟩
    rintro rfl
    simp at hk

/-- instance: the hand 1m 1m 2m 5p is at step 1 for a pair and a meld; ... -/
example : HandOK exSmall ∧ AtMostFour (content exSmall) ∧ (heurBefore 0 (.normal 1 1) true exSmall).1 = .ok 1 ∧
    winSize (.normal 1 1) ≤ TileSet.len exSmall + 1 ∧
    (heurWaitingUseful 0 (.normal 1 1) true exSmall).toOption.map
      (fun r => (r.1, decide ((Suit.m, (3 : Int)) ∈ r.2.map Tile.view))) = some (1, true) :=
  ⟨by decide, atMostFour_of_list (by decide), by decide +kernel, by decide, by decide +kernel⟩

/-- ... with a 3m it can discard the 5p and wait for 1m and 4m, or discard a 1m and wait for 5p; ... -/
example : (heurBatch 0 (.normal 1 1) true (TileSet.add exSmall (Counter.ofIter [⟨.m,3,false⟩]))).toOption.map
      (fun l => l.map (fun e => (e.1.view, e.2.1, e.2.2.map Tile.view))) =
    some [((.p,5), 0, [(.m,1),(.m,4)]), ((.m,1), 0, [(.p,5)])] := by
  decide +kernel

/-- ... and 1m 2m 3m 5p is ready, for the 5p. -/
example : (heurWaitingUseful 0 (.normal 1 1) true
      (Counter.ofIter [⟨.m,1,false⟩,⟨.m,2,false⟩,⟨.m,3,false⟩,⟨.p,0,true⟩])).toOption.map
      (fun r => (r.1, r.2.map Tile.view)) = some (0, [(.p,5)]) := by decide +kernel

end Verif.Props
