import Verif.Proofs.BruteForce
import Verif.Proofs.HeurTop
import Verif.Proofs.Fuel
import Verif.Proofs.Bounds
import Verif.Props.Win

/-!
Properties C13 – C23: the waiting step ("shanten") and the useful tiles.

`∃ fuel, f … fuel … = some r` says that the call, whose outer loop runs over `itertools.count`,
returns `r`.
-/
namespace Verif.Props
open Verif.Py Verif.Model Verif.Spec Verif.Proofs

/-- a hand one tile short of `exHand`, with a red five: waiting for 3m or 6m … -/
def exWait : TileSet := Counter.ofIter
  [⟨.m,1,false⟩,⟨.m,2,false⟩,⟨.m,4,false⟩,⟨.m,0,true⟩,⟨.m,6,false⟩,
   ⟨.p,9,false⟩,⟨.p,9,false⟩,⟨.p,9,false⟩,⟨.s,7,false⟩,⟨.s,8,false⟩,⟨.s,9,false⟩,⟨.z,1,false⟩,⟨.z,1,false⟩]

/-- a small hand: 1m 1m 2m with a red 5p -/
def exSmall : TileSet := Counter.ofIter [⟨.m,2,false⟩,⟨.m,1,false⟩,⟨.p,0,true⟩,⟨.m,1,false⟩]

example : HandOK exWait ∧ HandOK exSmall := by decide

theorem atMostFour_of_list {c : TileSet} (h : ∀ e ∈ c, e.2 ≤ 4) : AtMostFour (content c) := by
  intro k
  unfold content
  induction c with
  | nil => simp
  | cons e c ih =>
    obtain ⟨a, n⟩ := e
    rw [Counter.get_cons]
    split
    · exact h (a, n) (by simp)
    · exact ih (fun e he => h e (by simp [he]))

example : AtMostFour (content exWait) ∧ AtMostFour (content exSmall) :=
  ⟨atMostFour_of_list (by decide), atMostFour_of_list (by decide)⟩

/-! ### C13 -/

theorem canReach_zero {w : Pattern} {h : Kind → Int} (hr : CanReach w h 0) (h0 : ∀ k, 0 ≤ h k) :
    Wins w h := by
  obtain ⟨D, h1, h2, h3⟩ := canReach_deficit hr
  have := deficit_nonneg D h
  exact ⟨D, h1, (deficit_zero_iff h1.proper h0).1 (by simp at h3; omega)⟩

/-- **C13.** A winning hand gives -1; otherwise the call returns `n` exactly when `n + 1` is the least
    number of tiles that can be added (at most four copies of a kind) to make the hand win. -/
theorem C13_brute_least (w : Pattern) (hand : TileSet) (hh : HandOK hand) :
    (Wins w (content hand) → ∀ fuel, bruteBefore w true fuel hand = some (-1)) ∧
    (¬ Wins w (content hand) → ∀ n : Int,
      ((∃ fuel, bruteBefore w true fuel hand = some n) ↔
        ∃ m : Nat, n + 1 = m ∧ CanReach w (content hand) m ∧
          ∀ m' : Nat, m' < m → ¬ CanReach w (content hand) m')) ∧
    ((∃ fuel n, bruteBefore w true fuel hand = some n) ↔
      Wins w (content hand) ∨ ∃ m, CanReach w (content hand) m) := by
  have h2 : ¬ Wins w (content hand) → ∀ n : Int,
      ((∃ fuel, bruteBefore w true fuel hand = some n) ↔
        ∃ m : Nat, n + 1 = m ∧ CanReach w (content hand) m ∧
          ∀ m' : Nat, m' < m → ¬ CanReach w (content hand) m') := by
    intro hw n
    constructor
    · rintro ⟨fuel, hf⟩
      rcases (bruteBefore_spec hh fuel n).1 hf with ⟨h, _⟩ | ⟨_, m, h1, _, h3, h4, h5⟩
      · exact absurd h hw
      · refine ⟨m, by omega, h3, fun m' hlt hr => ?_⟩
        by_cases h0 : m' = 0
        · subst h0; exact hw (canReach_zero hr hh.get_nonneg)
        · exact h4 m' (by omega) hlt hr
    · rintro ⟨m, h1, h3, h4⟩
      have : m ≠ 0 := by rintro rfl; exact hw (canReach_zero h3 hh.get_nonneg)
      exact ⟨m, (bruteBefore_spec hh m n).2
        (Or.inr ⟨hw, m, by omega, by omega, h3, fun m' _ hlt => h4 m' hlt, by omega⟩)⟩
  refine ⟨fun hw fuel => (bruteBefore_spec hh fuel (-1)).2 (Or.inl ⟨hw, rfl⟩), h2, ?_, ?_⟩
  · rintro ⟨fuel, n, hf⟩
    rcases (bruteBefore_spec hh fuel n).1 hf with ⟨h, _⟩ | ⟨_, m, _, _, h3, _⟩
    · exact Or.inl h
    · exact Or.inr ⟨m, h3⟩
  · intro h
    by_cases hw : Wins w (content hand)
    · exact ⟨0, -1, (bruteBefore_spec hh 0 (-1)).2 (Or.inl ⟨hw, rfl⟩)⟩
    · rcases h with h | ⟨m, hm⟩
      · exact absurd h hw
      · obtain ⟨x, ⟨m0, hx, hm0⟩, hmin⟩ := exists_least
          (P := fun x => ∃ m : Nat, x = (m : Int) ∧ CanReach w (content hand) m)
          (by rintro x ⟨m, rfl, _⟩; omega) ⟨_, m, rfl, hm⟩
        obtain ⟨fuel, hf⟩ := (h2 hw ((m0 : Int) - 1)).2 ⟨m0, by omega, hm0, fun m' hlt hr => by
          have := hmin _ ⟨m', rfl, hr⟩; omega⟩
        exact ⟨fuel, _, hf⟩

/-- instance: the small hand lacks two tiles for a pair and a meld. -/
example : bruteBefore (.normal 1 1) true 3 exSmall = some 1 := by decide +kernel

/-! ### C14 -/

/-- **C14.** `PatternMatchWaiting.before_waiting_step` returns `n` exactly when `n` is the waiting
    step of the hand, and it returns exactly when some feasible complete win exists at all. -/
theorem C14_pattern_match_least (w : Pattern) (hand : TileSet) (hh : HandOK hand) :
    (∀ n, (∃ fuel, pmBefore w true fuel hand = some n) ↔ IsStep true w (content hand) n) ∧
    ((∃ fuel n, pmBefore w true fuel hand = some n) ↔
      ∃ D, Legal w D ∧ ∀ k, need D k ≤ 4) := by
  have h1 : ∀ n, (∃ fuel, pmBefore w true fuel hand = some n) ↔ IsStep true w (content hand) n := by
    intro n
    constructor
    · rintro ⟨fuel, hf⟩; exact ((pmBefore_spec hh fuel n).1 hf).1
    · intro h
      exact ⟨(n + 2).toNat, (pmBefore_spec hh _ n).2 ⟨h, by have := h.ge; omega⟩⟩
  refine ⟨h1, ?_, ?_⟩
  · rintro ⟨fuel, n, hf⟩
    obtain ⟨⟨D, a, b, _⟩, _⟩ := (h1 n).1 ⟨fuel, hf⟩
    exact ⟨D, a, b rfl⟩
  · rintro ⟨D, a, b⟩
    obtain ⟨n, hn⟩ := exists_isStep (lim := true) (content hand) ⟨D, a, fun _ => b⟩
    obtain ⟨fuel, hf⟩ := (h1 n).2 hn
    exact ⟨fuel, n, hf⟩

example : pmBefore (.normal 1 1) true 5 exSmall = some 1 := by decide +kernel

/-! ### C15 -/

/-- **C15.** The heuristic search, whatever value `s` earlier calls left in the object: it returns `n`
    exactly when `n` is the waiting step and `n + 1` does not exceed the number of tiles in the hand;
    it raises `ValueError`, and nothing else, exactly when every feasible win lacks more tiles than
    that. -/
theorem C15_heuristic_least (w : Pattern) (ig : Bool) (hand : TileSet) (hh : HandOK hand) (s : Int) :
    (∀ n, (heurBefore s w ig hand).1 = .ok n ↔
      IsStep ig w (content hand) n ∧ n + 1 ≤ TileSet.len hand) ∧
    (∀ e, (heurBefore s w ig hand).1 = .error e ↔ e = .valueError ∧
      ∀ D, Legal w D → Feasible ig D → TileSet.len hand < deficit D (content hand)) :=
  ⟨heurBefore_spec s hh, heurBefore_error s hh⟩

example : (heurBefore 7 (.normal 1 1) true exSmall).1 = .ok 1 := by decide +kernel
/-- the `ValueError` case occurs: one tile is too few for a triplet. -/
example : (heurBefore 7 (.normal 0 1) true (Counter.ofIter [⟨.m,1,false⟩])).1 = .error .valueError := by
  decide +kernel

/-! ### C16 -/

/-- **C16.** On hands with at most four copies of a kind the three algorithms agree whenever they
    return, and when the heuristic one returns the others return too. -/
theorem C16_algorithms_agree (w : Pattern) (hand : TileSet) (hh : HandOK hand)
    (h4 : AtMostFour (content hand)) (s : Int) :
    (∀ f g a b, bruteBefore w true f hand = some a → pmBefore w true g hand = some b → a = b) ∧
    (∀ g b c, pmBefore w true g hand = some b → (heurBefore s w true hand).1 = .ok c → b = c) ∧
    (∀ f a c, bruteBefore w true f hand = some a → (heurBefore s w true hand).1 = .ok c → a = c) ∧
    (∀ c, (heurBefore s w true hand).1 = .ok c →
      (∃ f, bruteBefore w true f hand = some c) ∧ ∃ g, pmBefore w true g hand = some c) := by
  refine ⟨?_, ?_, ?_, ?_⟩
  · intro f g a b ha hb
    exact ((bruteBefore_step hh h4 f a).1 ha).1.unique ((pmBefore_spec hh g b).1 hb).1
  · intro g b c hb hc
    exact ((pmBefore_spec hh g b).1 hb).1.unique ((heurBefore_spec s hh c).1 hc).1
  · intro f a c ha hc
    exact ((bruteBefore_step hh h4 f a).1 ha).1.unique ((heurBefore_spec s hh c).1 hc).1
  · intro c hc
    have hst := ((heurBefore_spec s hh c).1 hc).1
    refine ⟨⟨(c + 1).toNat, (bruteBefore_step hh h4 _ c).2 ⟨hst, by omega⟩⟩,
      ⟨(c + 2).toNat, (pmBefore_spec hh _ c).2 ⟨hst, by have := hst.ge; omega⟩⟩⟩

/-! ### C17 -/

theorem useful_kind_iff {w : Pattern} {hand : TileSet} (hh : HandOK hand) {n : Int}
    (a : IsStep true w (content hand) n) (k : Kind) :
    (∃ D, Legal w D ∧ Feasible true D ∧ deficit D (content hand) = n + 1 ∧ content hand k < need D k) ↔
      UsefulKind w (content hand) k := by
  by_cases hk : ValidKind k
  · exact (useful_iff a hk).symm
  · constructor
    · rintro ⟨D, h1, _, _, h4⟩
      rw [need_invalid h1.proper hk] at h4
      have := hh.get_nonneg k
      unfold content at h4
      omega
    · intro h; exact absurd h.1 hk

/-- **C17**, `HeuristicPatternMatchWaiting`: the reported step is the waiting step and the reported set
    holds exactly the useful kinds, each once. -/
theorem C17_heuristic_useful (w : Pattern) (hand : TileSet) (hh : HandOK hand) (s n : Int) (u : List Tile)
    (h : heurWaitingUseful s w true hand = .ok (n, u)) :
    IsStep true w (content hand) n ∧ (u.map Tile.view).Nodup ∧
    ∀ k, k ∈ u.map Tile.view ↔ UsefulKind w (content hand) k := by
  obtain ⟨h1, _, h3, _, h5⟩ := heurWaitingUseful_eq hh h
  exact ⟨h1, h3, fun k => (h5 k).trans (useful_kind_iff hh h1 k)⟩

/-- **C17**, `HeuristicPatternMatchWaiting`: when it returns. -/
theorem C17_heuristic_returns (w : Pattern) (hand : TileSet) (hh : HandOK hand) (s n : Int)
    (h : IsStep true w (content hand) n) (hle : n + 1 ≤ TileSet.len hand) :
    ∃ u, heurWaitingUseful s w true hand = .ok (n, u) := heurWaitingUseful_ok hh h hle

/-- **C17**, `PatternMatchWaiting`, for a hand that does not win yet. -/
theorem C17_pattern_match_useful (w : Pattern) (hand : TileSet) (hh : HandOK hand)
    (hw : ¬ Wins w (content hand)) (fuel : Nat) (n : Int) (u : List Tile)
    (h : pmWaitingUseful w true fuel hand = some (n, u)) :
    IsStep true w (content hand) n ∧ (u.map Tile.view).Nodup ∧
    ∀ k, k ∈ u.map Tile.view ↔ UsefulKind w (content hand) k := by
  obtain ⟨c, h1, _, h3, rfl⟩ := (pmWaitingUseful_spec hh fuel n u).1 h
  have hst := (leastLacking_iff_isStep (h := content hand) hh.get_nonneg hw c).1 h1
  rw [← h3] at hst
  refine ⟨hst, nodup_pmUsefulAt w true hand c, fun k => ?_⟩
  have h6 : k ∈ (pmUsefulAt w true hand c).map Tile.view ↔ _ := mem_pmUsefulAt hh
  rw [h6, ← useful_kind_iff hh hst]
  constructor
  · rintro ⟨D, a, b, d, e⟩
    have := hst.2 D a b
    exact ⟨D, a, b, by omega, e⟩
  · rintro ⟨D, a, b, d, e⟩
    exact ⟨D, a, b, by omega, e⟩

/-- **C17**, `PatternMatchWaiting`: it returns whenever the waiting step exists. -/
theorem C17_pattern_match_returns (w : Pattern) (hand : TileSet) (hh : HandOK hand)
    (hw : ¬ Wins w (content hand)) (n : Int) (h : IsStep true w (content hand) n) :
    ∃ fuel u, pmWaitingUseful w true fuel hand = some (n, u) := by
  have hge := h.ge
  refine ⟨(n + 2).toNat, _, (pmWaitingUseful_spec hh _ n _).2 ⟨(n + 1).toNat, ?_, by omega, by omega, rfl⟩⟩
  refine (leastLacking_iff_isStep hh.get_nonneg hw _).2 ?_
  have : (((n + 1).toNat : Nat) : Int) - 1 = n := by omega
  rw [this]; exact h

/-- **C17**, `BruteForceWaiting.useful_tiles`. -/
theorem C17_brute_useful (w : Pattern) (hand : TileSet) (hh : HandOK hand)
    (h4 : AtMostFour (content hand)) (fuel : Nat) (u : List Tile)
    (h : bruteUseful w true fuel hand = some u) :
    (u.map Tile.view).Nodup ∧ ∀ k, k ∈ u.map Tile.view ↔ UsefulKind w (content hand) k :=
  bruteUseful_spec hh h4 fuel u h

/-- **C17**, `BruteForceWaiting.waiting_and_useful_tiles`: the reported step is the waiting step and the reported tiles are exactly
    the useful ones. -/
theorem C17_brute_both (w : Pattern) (hand : TileSet) (hh : HandOK hand)
    (h4 : AtMostFour (content hand)) (fuel : Nat) (n : Int) (u : List Tile)
    (h : bruteWaitingUseful w true fuel hand = some (n, u)) :
    IsStep true w (content hand) n ∧ (u.map Tile.view).Nodup ∧ ∀ k, k ∈ u.map Tile.view ↔ UsefulKind w (content hand) k := by
  unfold bruteWaitingUseful at h
  split at h
  · cases h
  · rename_i m hm
    obtain ⟨v, hv, he⟩ := Option.map_eq_some_iff.1 h
    obtain ⟨rfl, rfl⟩ := Prod.mk.inj he
    have hs := bruteUseful_spec hh.reSort (by rw [content_reSort hh]; exact h4) fuel v hv
    rw [content_reSort hh] at hs
    exact ⟨((bruteBefore_step hh h4 fuel m).1 hm).1, hs⟩

/-- **C17**, `BruteForceWaiting.useful_tiles` returns whenever the waiting step exists. -/
theorem C17_brute_returns (w : Pattern) (hand : TileSet) (hh : HandOK hand)
    (h4 : AtMostFour (content hand)) (n : Int) (h : IsStep true w (content hand) n) :
    ∃ fuel u, bruteUseful w true fuel hand = some u := by
  obtain ⟨u, hu⟩ := bruteUseful_returns hh h4 h (n + 1).toNat (by omega)
  exact ⟨_, u, hu⟩

/-- instance: the small hand does not win, and the three algorithms report the same nine kinds. -/
example : ¬ Wins (.normal 1 1) (content exSmall) ∧
    (heurWaitingUseful 0 (.normal 1 1) true exSmall).toOption.map (fun r => (r.1, r.2.map Tile.view)) =
      some (1, [(.m,1),(.m,3),(.m,4),(.m,2),(.p,3),(.p,4),(.p,6),(.p,7),(.p,5)]) ∧
    (pmWaitingUseful (.normal 1 1) true 5 exSmall).map (fun r => (r.1, r.2.length)) = some (1, 9) ∧
    (bruteWaitingUseful (.normal 1 1) true 5 exSmall).map (fun r => (r.1, r.2.map Tile.view)) =
      some (1, [(.m,1),(.m,2),(.m,3),(.m,4),(.p,3),(.p,4),(.p,5),(.p,6),(.p,7)]) := by
  refine ⟨fun h => ?_, by decide +kernel, by decide +kernel, by decide +kernel⟩
  have := (winMatch_iff (by decide)).2 h
  revert this
  decide +kernel

/-! ### C18 -/

/-- **C18.** What `batch_waiting_and_useful_tiles(hand)` yields: every tile at most once; a kind is
    yielded exactly when the hand holds it and the hand without it has the same waiting step `n`; the
    reported step is `n` and the reported set is the useful set of the hand without that tile. -/
theorem C18_batch (w : Pattern) (hand : TileSet) (hh : HandOK hand) (s : Int)
    (l : List (Tile × Int × List Tile)) (h : heurBatch s w true hand = .ok l) :
    ∃ n, IsStep true w (content hand) n ∧
      (l.map (fun e => e.1.view)).Nodup ∧
      (∀ k, k ∈ l.map (fun e => e.1.view) ↔
        0 < content hand k ∧ IsStep true w (minus (content hand) k) n) ∧
      (∀ e ∈ l, e.2.1 = n ∧ (e.2.2.map Tile.view).Nodup ∧
        ∀ u, u ∈ e.2.2.map Tile.view ↔ UsefulKind w (minus (content hand) e.1.view) u) := by
  obtain ⟨n, h1, _, h3, h4, h5, h6⟩ := heurBatch_spec hh h
  have hval : ∀ {D : List Group} {k : Kind}, need D k < content hand k → ValidKind k := by
    intro D k hlt
    apply Classical.byContradiction
    intro hv
    have h0 := hh.hd.get_invalid hv
    have := need_nonneg D k
    unfold content at hlt
    omega
  have hiff : ∀ k, k ∈ l.map (fun e => e.1.view) ↔
      0 < content hand k ∧ IsStep true w (minus (content hand) k) n := by
    intro k
    rw [h5]
    constructor
    · rintro ⟨D, a, b, c, d⟩
      have := need_nonneg D k
      exact ⟨by omega, (isStep_minus_iff h1 (hval d)).2 ⟨D, a, b, c, d⟩⟩
    · rintro ⟨hpos, hst⟩
      exact (isStep_minus_iff h1 (hval (D := []) (by simpa using hpos))).1 hst
  refine ⟨n, h1, h3, hiff, ?_⟩
  intro e he
  obtain ⟨a, b, c, d⟩ := h4 e he
  refine ⟨a, c, fun u => ?_⟩
  obtain ⟨hpos, hst⟩ := (hiff e.1.view).1 (List.mem_map.2 ⟨e, he, rfl⟩)
  have hu : u ∈ e.2.2.map Tile.view ↔ _ := h6 e he u
  rw [hu]
  by_cases hv : ValidKind u
  · exact (useful_minus_iff h1 b.1 hv hst).symm
  · constructor
    · rintro ⟨D, a, _, _, _, hlt⟩
      rw [need_invalid a.proper hv] at hlt
      have := hh.get_nonneg u
      unfold content at hlt
      omega
    · intro hh'; exact absurd hh'.1 hv

theorem content_sub_one {hand : TileSet} (hh : HandOK hand) (t : Tile) (hpos : 0 < content hand t.view) :
    content (TileSet.sub hand (Counter.ofIter [t])) = minus (content hand) t.view := by
  funext k
  unfold content minus
  rw [get_sub hh.1 (Counter.WF_ofIter _), show Counter.get (Counter.ofIter [t] : TileSet) k =
    if k = t.view then 1 else 0 by
      rw [get_ofIter']
      by_cases hk : k = t.view
      · subst hk; simp
      · have hk' : ¬ t.view = k := fun h => hk h.symm
        simp [List.count_cons, hk, hk']]
  have h0 := hh.get_nonneg k
  by_cases hk : k = t.view
  · subst hk
    unfold content at hpos
    simp only [if_true]
    omega
  · simp only [hk, if_false]
    omega

/-- **C18**, in terms of the API only: whenever re-analysing the hand without a yielded tile succeeds, it
    reports the same step and the same useful kinds. -/
theorem C18_batch_reanalyse (w : Pattern) (hand : TileSet) (hh : HandOK hand) (s s' : Int)
    (l : List (Tile × Int × List Tile)) (h : heurBatch s w true hand = .ok l)
    (e : Tile × Int × List Tile) (he : e ∈ l) (n : Int) (u : List Tile)
    (hr : heurWaitingUseful s' w true (TileSet.sub hand (Counter.ofIter [e.1])) = .ok (n, u)) :
    e.2.1 = n ∧ ∀ k, k ∈ e.2.2.map Tile.view ↔ k ∈ u.map Tile.view := by
  obtain ⟨m, h1, h2, h3, h4⟩ := C18_batch w hand hh s l h
  obtain ⟨hpos, hst⟩ := (h3 e.1.view).1 (List.mem_map.2 ⟨e, he, rfl⟩)
  obtain ⟨a, b, c⟩ := h4 e he
  obtain ⟨m', _, _, _, hreal, _⟩ := heurBatch_spec hh h
  have hok : HandOK (TileSet.sub hand (Counter.ofIter [e.1])) :=
    HandOK_sub hh (HandOK_ofIter (by simpa using (hreal e he).2.1))
  obtain ⟨b1, _, b3⟩ := C17_heuristic_useful w _ hok s' n u hr
  rw [content_sub_one hh e.1 hpos] at b1 b3
  refine ⟨by rw [a]; exact hst.unique b1, fun k => by rw [c, b3]⟩

/-- **C18.** The call succeeds whenever the step is found. -/
theorem C18_batch_returns (w : Pattern) (hand : TileSet) (hh : HandOK hand) (s n : Int)
    (h : IsStep true w (content hand) n) (hle : n + 1 ≤ TileSet.len hand) :
    ∃ l, heurBatch s w true hand = .ok l := heurBatch_ok hh h hle

/-- instance: any of the three kinds of the small hand can be discarded at step 1, with different useful
    tiles. -/
example : (heurBatch 3 (.normal 1 1) true exSmall).toOption.map
      (fun l => l.map (fun e => (e.1.view, e.2.1, e.2.2.map Tile.view))) =
    some [((.p,5), 1, [(.m,1),(.m,3),(.m,4),(.m,2)]),
      ((.m,2), 1, [(.p,3),(.p,4),(.p,6),(.p,7),(.p,5),(.m,1)]),
      ((.m,1), 1, [(.p,5),(.m,3)])] := by decide +kernel

/-! ### C19 -/

/-- **C19.** Normal form: any hand with at most four copies of a kind and at least `3 m + 1` tiles
    (`m ≤ 4` melds wanted, one pair) gets a number between -1 and `2 m`; no exception. -/
theorem C19_normal_never_fails (m : Nat) (hm : m ≤ 4) (hand : TileSet) (hh : HandOK hand)
    (h4 : AtMostFour (content hand)) (hsize : 3 * (m : Int) + 1 ≤ TileSet.len hand) (s : Int) :
    ∃ n, (heurBefore s (.normal 1 m) true hand).1 = .ok n ∧ -1 ≤ n ∧ n ≤ 2 * (m : Int) := by
  have hlen : TileSet.len hand = sumK (content hand) := total_eq_sumK hh.1 hh.2.1
  rw [hlen] at hsize
  obtain ⟨D, h1, h2, h3⟩ := normal_bound (h := content hand) hh.get_nonneg h4 hm hsize
  obtain ⟨n, hn⟩ := exists_isStep (lim := true) (content hand) ⟨D, h1, h2⟩
  have h5 := hn.2 D h1 h2
  have h6 := hn.ge
  refine ⟨n, (heurBefore_spec s hh n).2 ⟨hn, ?_⟩, h6, by omega⟩
  have : Counter.total hand = sumK (content hand) := hlen
  omega

/-- **C19.** Seven pairs: any hand with at most four copies of a kind and 13 or more tiles gets a number
    between -1 and 6. -/
theorem C19_seven_pairs_never_fails (hand : TileSet) (hh : HandOK hand)
    (h4 : AtMostFour (content hand)) (hsize : 13 ≤ TileSet.len hand) (s : Int) :
    ∃ n, (heurBefore s (.unique 7 []) true hand).1 = .ok n ∧ -1 ≤ n ∧ n ≤ 6 := by
  have hlen : TileSet.len hand = sumK (content hand) := total_eq_sumK hh.1 hh.2.1
  rw [hlen] at hsize
  obtain ⟨D, h1, h2, h3⟩ := pairs_bound (h := content hand) hh.get_nonneg h4 hsize
  obtain ⟨n, hn⟩ := exists_isStep (lim := true) (content hand) ⟨D, h1, h2⟩
  have h5 := hn.2 D h1 h2
  have h6 := hn.ge
  refine ⟨n, (heurBefore_spec s hh n).2 ⟨hn, ?_⟩, h6, by omega⟩
  have : Counter.total hand = sumK (content hand) := hlen
  omega

/-- instance: 13 tiles. -/
example : (13 : Int) ≤ TileSet.len exWait ∧ 3 * ((4 : Nat) : Int) + 1 ≤ TileSet.len exWait := by decide

/-! ### C20 -/

/-- **C20.** `PatternMatchWaiting`, adding and removing one tile. -/
theorem C20_pattern_match_one_tile (w : Pattern) (ig : Bool) (hand : TileSet) (hh : HandOK hand) (t : Tile)
    (ht : RealTile t) (f g : Nat) (n n' : Int) (hn : pmBefore w ig f hand = some n) :
    (pmBefore w ig g (TileSet.add hand (Counter.ofIter [t])) = some n' → n - 1 ≤ n' ∧ n' ≤ n) ∧
    (0 < content hand t.view → pmBefore w ig g (TileSet.sub hand (Counter.ofIter [t])) = some n' →
      n ≤ n' ∧ n' ≤ n + 1) := by
  have hone : HandOK (Counter.ofIter [t]) := HandOK_ofIter (by simpa using ht)
  have h1 := ((pmBefore_spec hh f n).1 hn).1
  refine ⟨fun h => ?_, fun hpos h => ?_⟩
  · have h2 := ((pmBefore_spec (HandOK_add hh hone) g n').1 h).1
    rw [content_add_one hh] at h2
    exact isStep_plus ht.1 h1 h2
  · have h2 := ((pmBefore_spec (HandOK_sub hh hone) g n').1 h).1
    rw [content_sub_one hh t hpos] at h2
    rw [← minus_plus (content hand) t.view] at h1
    have := isStep_plus ht.1 h2 h1
    omega

/-- **C20.** `HeuristicPatternMatchWaiting`. -/
theorem C20_heuristic_one_tile (w : Pattern) (ig : Bool) (hand : TileSet) (hh : HandOK hand) (t : Tile)
    (ht : RealTile t) (s s' n n' : Int) (hn : (heurBefore s w ig hand).1 = .ok n) :
    ((heurBefore s' w ig (TileSet.add hand (Counter.ofIter [t]))).1 = .ok n' → n - 1 ≤ n' ∧ n' ≤ n) ∧
    (0 < content hand t.view → (heurBefore s' w ig (TileSet.sub hand (Counter.ofIter [t]))).1 = .ok n' →
      n ≤ n' ∧ n' ≤ n + 1) := by
  have hone : HandOK (Counter.ofIter [t]) := HandOK_ofIter (by simpa using ht)
  have h1 := ((heurBefore_spec s hh n).1 hn).1
  refine ⟨fun h => ?_, fun hpos h => ?_⟩
  · have h2 := ((heurBefore_spec s' (HandOK_add hh hone) n').1 h).1
    rw [content_add_one hh] at h2
    exact isStep_plus ht.1 h1 h2
  · have h2 := ((heurBefore_spec s' (HandOK_sub hh hone) n').1 h).1
    rw [content_sub_one hh t hpos] at h2
    rw [← minus_plus (content hand) t.view] at h1
    have := isStep_plus ht.1 h2 h1
    omega

/-- **C20.** `BruteForceWaiting`, on hands that keep at most four copies of a kind. -/
theorem C20_brute_one_tile (w : Pattern) (hand : TileSet) (hh : HandOK hand) (t : Tile)
    (ht : RealTile t) (f g : Nat) (n n' : Int) (h4 : AtMostFour (content hand))
    (hn : bruteBefore w true f hand = some n) :
    (content hand t.view < 4 →
      bruteBefore w true g (TileSet.add hand (Counter.ofIter [t])) = some n' → n - 1 ≤ n' ∧ n' ≤ n) ∧
    (0 < content hand t.view → bruteBefore w true g (TileSet.sub hand (Counter.ofIter [t])) = some n' →
      n ≤ n' ∧ n' ≤ n + 1) := by
  have hone : HandOK (Counter.ofIter [t]) := HandOK_ofIter (by simpa using ht)
  have h1 := ((bruteBefore_step hh h4 f n).1 hn).1
  refine ⟨fun hlt h => ?_, fun hpos h => ?_⟩
  · have h2 := ((bruteBefore_step (HandOK_add hh hone)
      (by rw [content_add_one hh]; exact atMostFour_plus h4 hlt) g n').1 h).1
    rw [content_add_one hh] at h2
    exact isStep_plus ht.1 h1 h2
  · have h2 := ((bruteBefore_step (HandOK_sub hh hone)
      (by
        rw [content_sub_one hh t hpos]
        intro k
        have := h4 k
        unfold minus
        split <;> omega) g n').1 h).1
    rw [content_sub_one hh t hpos] at h2
    rw [← minus_plus (content hand) t.view] at h1
    have := isStep_plus ht.1 h2 h1
    omega

/-- instance: a useful and a useless draw, and two discards. -/
example : pmBefore (.normal 1 1) true 5 exSmall = some 1 ∧
    pmBefore (.normal 1 1) true 5 (TileSet.add exSmall (Counter.ofIter [⟨.m,3,false⟩])) = some 0 ∧
    pmBefore (.normal 1 1) true 5 (TileSet.add exSmall (Counter.ofIter [⟨.s,5,false⟩])) = some 1 ∧
    pmBefore (.normal 1 1) true 5 (TileSet.sub exSmall (Counter.ofIter [⟨.m,1,false⟩])) = some 1 ∧
    pmBefore (.normal 1 0) true 5 exSmall = some (-1) ∧
    pmBefore (.normal 1 0) true 5 (TileSet.sub exSmall (Counter.ofIter [⟨.m,1,false⟩])) = some 0 := by
  decide +kernel
/-- why the brute-force statement needs at most four copies: a fifth 1m moves the step from 1 to -1. -/
example : bruteBefore (.normal 1 1) true 5 [(⟨.m,1,false⟩, 4)] = some 1 ∧
    bruteBefore (.normal 1 1) true 5 [(⟨.m,1,false⟩, 5)] = some (-1) := by decide +kernel

/-! ### C21 -/

/-- **C21.** A winning hand (at most four copies of a kind): all three `before_waiting_step` report -1,
    and so do `waiting_and_useful_tiles` of the brute-force and the heuristic class, with no useful
    tiles. -/
theorem C21_winning_hand (w : Pattern) (hand : TileSet) (hh : HandOK hand) (h4 : AtMostFour (content hand))
    (hw : Wins w (content hand)) (s : Int) :
    (∀ fuel, bruteBefore w true fuel hand = some (-1)) ∧
    (∀ fuel, pmBefore w true (fuel + 1) hand = some (-1)) ∧
    (heurBefore s w true hand).1 = .ok (-1) ∧
    (∀ fuel, bruteWaitingUseful w true fuel hand = some (-1, [])) ∧
    heurWaitingUseful s w true hand = .ok (-1, []) := by
  have hst := neg_one_of_wins (lim := true) hh.get_nonneg (fun _ => h4) hw
  have hb : ∀ fuel, bruteBefore w true fuel hand = some (-1) :=
    fun fuel => (bruteBefore_spec hh fuel (-1)).2 (Or.inl ⟨hw, rfl⟩)
  have hnone : ∀ k, ¬ UsefulKind w (content hand) k := by
    rintro k ⟨_, _, n, n', a, b, hlt⟩
    have := a.unique hst
    have := b.ge
    omega
  refine ⟨hb, fun fuel => (pmBefore_spec hh _ _).2 ⟨hst, by omega⟩,
    (heurBefore_spec s hh (-1)).2 ⟨hst, by have := total_nonneg hh; omega⟩, ?_, ?_⟩
  · intro fuel
    unfold bruteWaitingUseful
    rw [hb fuel]
    have hr := HandOK.reSort' hh
    have hc := content_reSort' hh
    obtain ⟨u, hu⟩ := bruteUseful_returns hr (by rw [hc]; exact h4) (by rw [hc]; exact hst) fuel (by omega)
    have h6 := (bruteUseful_spec hr (by rw [hc]; exact h4) fuel u hu).2
    have : u = [] := by
      cases u with
      | nil => rfl
      | cons a u =>
        have := (h6 a.view).1 (by simp [kindsOf])
        rw [hc] at this
        exact absurd this (hnone _)
    subst this
    simp only [hu, Option.map_some]
  · obtain ⟨u, hu⟩ := heurWaitingUseful_ok (s := s) hh hst (by have := total_nonneg hh; omega)
    have h6 := (C17_heuristic_useful w hand hh s (-1) u hu).2.2
    cases u with
    | nil => exact hu
    | cons a u => exact absurd ((h6 a.view).1 (by simp)) (hnone _)

/-- **C21**, the exception: `PatternMatchWaiting.waiting_and_useful_tiles` never reports -1, for any
    hand; on a winning hand it therefore reports a wrong step (if it returns at all). -/
theorem C21_pattern_match_never_minus_one (w : Pattern) (ig : Bool) (hand : TileSet) (hh : HandOK hand)
    (fuel : Nat) (n : Int) (u : List Tile) (h : pmWaitingUseful w ig fuel hand = some (n, u)) :
    0 ≤ n ∧ u ≠ [] := by
  obtain ⟨c, h1, _, h3, h4⟩ := (pmWaitingUseful_spec hh fuel n u).1 h
  obtain ⟨D, a, b, d, e⟩ := h1.1
  refine ⟨by omega, ?_⟩
  rw [h4]
  have := (pmUsefulAt_pos (w := w) (ig := ig) hh (c := c)).2 ⟨D, a, b, d, e⟩
  intro h0
  rw [h0] at this
  simp at this

/-- witness: the pair 1m 1m wins for "one pair", yet the answer is step 0 with 33 useful kinds. -/
example : Wins (.normal 1 0) (content (Counter.ofIter [⟨.m,1,false⟩,⟨.m,1,false⟩])) ∧
    (pmWaitingUseful (.normal 1 0) true 5 (Counter.ofIter [⟨.m,1,false⟩,⟨.m,1,false⟩])).map
      (fun r => (r.1, r.2.length)) = some (1, 33) := by
  refine ⟨(winMatch_iff (by decide)).1 (by decide +kernel), by decide +kernel⟩

/-! ### C22 -/

/-- **C22.** Two hands with the same number of tiles of each kind (whatever the insertion order,
    whichever fives are red, whatever zero entries are stored) get the same waiting step from every
    algorithm. -/
theorem C22_step_depends_on_kinds (w : Pattern) (ig : Bool) (a b : TileSet) (ha : HandOK a) (hb : HandOK b)
    (hab : ∀ k, content a k = content b k) (fuel : Nat) (s : Int) :
    bruteBefore w true fuel a = bruteBefore w true fuel b ∧
    pmBefore w ig fuel a = pmBefore w ig fuel b ∧
    (heurBefore s w ig a).1 = (heurBefore s w ig b).1 := by
  have hc : content a = content b := funext hab
  refine ⟨?_, ?_, ?_⟩
  · apply Option.ext
    intro n
    rw [bruteBefore_spec ha, bruteBefore_spec hb, hc]
  · apply Option.ext
    intro n
    rw [pmBefore_spec ha, pmBefore_spec hb, hc]
  · have htot : Counter.total a = Counter.total b := by
      rw [total_eq_sumK ha.1 ha.2.1, total_eq_sumK hb.1 hb.2.1]
      exact sumK_congr (fun k _ => hab k)
    rcases heurBefore_cases s (w := w) (ig := ig) ha with ⟨h1, h2⟩ | ⟨n, h1, h2, h3⟩
    · rw [h1]
      exact ((heurBefore_error s hb .valueError).2 ⟨rfl, by rw [← hc, ← htot]; exact h2⟩).symm
    · rw [h1]
      exact ((heurBefore_spec s hb n).2 ⟨by rw [← hc]; exact h2, by omega⟩).symm

/-- **C22.** … and the same set of useful kinds. -/
theorem C22_useful_depends_on_kinds (w : Pattern) (a b : TileSet) (ha : HandOK a) (hb : HandOK b)
    (hab : ∀ k, content a k = content b k) (s : Int) :
    (∀ f u v, AtMostFour (content a) → bruteUseful w true f a = some u → bruteUseful w true f b = some v →
      ∀ k, k ∈ u.map Tile.view ↔ k ∈ v.map Tile.view) ∧
    (∀ ig f n m u v, pmWaitingUseful w ig f a = some (n, u) → pmWaitingUseful w ig f b = some (m, v) →
      n = m ∧ ∀ k, k ∈ u.map Tile.view ↔ k ∈ v.map Tile.view) ∧
    (∀ n m u v, heurWaitingUseful s w true a = .ok (n, u) → heurWaitingUseful s w true b = .ok (m, v) →
      n = m ∧ ∀ k, k ∈ u.map Tile.view ↔ k ∈ v.map Tile.view) := by
  have hc : content a = content b := funext hab
  refine ⟨?_, ?_, ?_⟩
  · intro f u v h4 hu hv k
    rw [(C17_brute_useful w a ha h4 f u hu).2 k, (C17_brute_useful w b hb (by rw [← hc]; exact h4) f v hv).2 k, hc]
  · intro ig f n m u v hu hv
    obtain ⟨c, h1, _, h3, rfl⟩ := (pmWaitingUseful_spec ha f n u).1 hu
    obtain ⟨d, h1', _, h3', rfl⟩ := (pmWaitingUseful_spec hb f m v).1 hv
    have hcd : c = d := by
      obtain ⟨⟨D, x1, x2, x3, x4⟩, y⟩ := h1
      obtain ⟨⟨D', x1', x2', x3', x4'⟩, y'⟩ := h1'
      rw [← hc] at x3' x4' y'
      have := y D' x1' x2' x3'
      have := y' D x1 x2 x3
      omega
    subst hcd
    refine ⟨by omega, fun k => ?_⟩
    have e1 : k ∈ (pmUsefulAt w ig a c).map Tile.view ↔ _ := mem_pmUsefulAt ha
    have e2 : k ∈ (pmUsefulAt w ig b c).map Tile.view ↔ _ := mem_pmUsefulAt hb
    rw [e1, e2, hc]
  · intro n m u v hu hv
    obtain ⟨a1, _, a3⟩ := C17_heuristic_useful w a ha s n u hu
    obtain ⟨b1, _, b3⟩ := C17_heuristic_useful w b hb s m v hv
    rw [hc] at a1
    exact ⟨a1.unique b1, fun k => by rw [a3, b3, hc]⟩

/-- instance: other order, plain instead of red five, a stored zero. -/
def exSmall' : TileSet := (⟨.s,3,false⟩, 0) :: Counter.ofIter
  [⟨.p,5,false⟩,⟨.m,1,false⟩,⟨.m,1,false⟩,⟨.m,2,false⟩]

example : HandOK exSmall' ∧ exSmall' ≠ exSmall ∧ ∀ k, content exSmall k = content exSmall' k := by
  refine ⟨by decide, by decide, fun k => ?_⟩
  by_cases hk : k ∈ [(Suit.m,1),(Suit.m,2),(Suit.p,5),(Suit.s,3)]
  · revert k; decide
  · simp only [List.mem_cons, List.not_mem_nil, or_false, not_or] at hk
    have hn : ∀ {c : TileSet}, (∀ e ∈ c, k ≠ e.1.view) → content c k = 0 := by
      intro c hc
      unfold content
      induction c with
      | nil => rfl
      | cons e c ih =>
        obtain ⟨a, n⟩ := e
        rw [Counter.get_cons, if_neg (fun h => hc (a, n) (by simp) h.symm)]
        exact ih (fun e he => hc e (by simp [he]))
    rw [hn, hn]
    · rw [show exSmall' = [(⟨.s,3,false⟩, 0), (⟨.p,5,false⟩, 1), (⟨.m,1,false⟩, 2), (⟨.m,2,false⟩, 1)] from rfl]
      simp [Tile.view, hk]
    · rw [show exSmall = [(⟨.m,2,false⟩, 1), (⟨.m,1,false⟩, 2), (⟨.p,0,true⟩, 1)] from rfl]
      simp [Tile.view, hk]

/-! ### C23 -/

/-- **C23.** `ignore_4counts=False` for `PatternMatchWaiting` and `HeuristicPatternMatchWaiting`: the call
    still returns whenever the default call does, with a step not larger. -/
theorem C23_lifting_the_limit (w : Pattern) (hand : TileSet) (hh : HandOK hand) (s : Int) (n : Int) :
    (∀ f, pmBefore w true f hand = some n → ∃ n', pmBefore w false f hand = some n' ∧ n' ≤ n) ∧
    ((heurBefore s w true hand).1 = .ok n → ∃ n', (heurBefore s w false hand).1 = .ok n' ∧ n' ≤ n) := by
  have key : IsStep true w (content hand) n → ∃ n', IsStep false w (content hand) n' ∧ n' ≤ n := by
    rintro ⟨⟨D, a, b, c⟩, _⟩
    obtain ⟨n', hn'⟩ := exists_isStep (lim := false) (content hand) ⟨D, a, fun h => by simp at h⟩
    have := hn'.2 D a (fun h => by simp at h)
    exact ⟨n', hn', by omega⟩
  refine ⟨fun f h => ?_, fun h => ?_⟩
  · obtain ⟨h1, h2⟩ := (pmBefore_spec hh f n).1 h
    obtain ⟨n', h3, h4⟩ := key h1
    exact ⟨n', (pmBefore_spec hh f n').2 ⟨h3, by omega⟩, h4⟩
  · obtain ⟨h1, h2⟩ := (heurBefore_spec s hh n).1 h
    obtain ⟨n', h3, h4⟩ := key h1
    exact ⟨n', (heurBefore_spec s hh n').2 ⟨h3, by omega⟩, h4⟩

/-- **C23**, what the lifted limit computes: the least lack over all complete wins. -/
theorem C23_unlimited_step (w : Pattern) (hand : TileSet) (hh : HandOK hand) (s : Int) (n : Int) :
    ((∃ f, pmBefore w false f hand = some n) ↔ IsStep false w (content hand) n) ∧
    ((heurBefore s w false hand).1 = .ok n ↔ IsStep false w (content hand) n ∧ n + 1 ≤ TileSet.len hand) := by
  refine ⟨⟨?_, ?_⟩, heurBefore_spec s hh n⟩
  · rintro ⟨f, hf⟩; exact ((pmBefore_spec hh f n).1 hf).1
  · intro h; exact ⟨(n + 2).toNat, (pmBefore_spec hh _ n).2 ⟨h, by have := h.ge; omega⟩⟩

/-- **C23.** `HeuristicPatternMatchWaiting.waiting_and_useful_tiles(hand, False)` still reports the step with four copies of each kind
    (its first pass does not get the flag).  Its tiles: every kind that a win without the limit, as near as any, lacks; and
    nothing but kinds that such a win no farther than the reported step lacks.  So where the limit does not change the step, the
    tiles are exactly those that a nearest win without the limit lacks. -/
theorem C23_unlimited_useful (w : Pattern) (hand : TileSet) (hh : HandOK hand) (s n : Int) (u : List Tile)
    (h : heurWaitingUseful s w false hand = .ok (n, u)) :
    IsStep true w (content hand) n ∧ (u.map Tile.view).Nodup ∧
    (∀ k n' D, IsStep false w (content hand) n' → Legal w D → deficit D (content hand) = n' + 1 → content hand k < need D k →
      k ∈ u.map Tile.view) ∧
    (∀ k ∈ u.map Tile.view, ∃ D, Legal w D ∧ deficit D (content hand) ≤ n + 1 ∧ content hand k < need D k) ∧
    (IsStep false w (content hand) n → ∀ k, k ∈ u.map Tile.view ↔
      ∃ D, Legal w D ∧ deficit D (content hand) = n + 1 ∧ content hand k < need D k) := by
  have hany : ∀ D, Feasible false D := fun D h => by simp at h
  unfold heurWaitingUseful at h
  rcases heurBefore_cases s (w := w) (ig := true) hh with ⟨h1, _⟩ | ⟨m, h1, h2, _⟩
  · rw [h1] at h; cases h
  rw [h1] at h
  simp only [Except.map, Except.ok.injEq, Prod.mk.injEq] at h
  obtain ⟨rfl, rfl⟩ := h
  have hr := HandOK.reSort' hh
  have hc := content_reSort' hh
  have hge := h2.ge
  have hpost := hTop_post (w := w) (ig := false) hr (pr := 0) (m := m + 1) (by omega) (by omega)
  have hin : ∀ k n' D, IsStep false w (content hand) n' → Legal w D → deficit D (content hand) = n' + 1 → content hand k < need D k →
      k ∈ kindsOf (setUpdate [] ((heurCombos w false (reSort hand) m).1.flatMap (fun r => r.borrowed.map (fun e : Tile × Int => e.1)))) := by
    intro k n' D hn hD hd hk
    have hle : n' ≤ m := by
      obtain ⟨⟨D', a, _, c⟩, _⟩ := h2
      have := hn.2 D' a (hany D')
      omega
    rw [mem_setUpdate]
    refine .inr ?_
    rcases hTop_complete (w := w) (ig := false) hr (pr := 0) (by omega) (m + 1) hD (hany D) with hf | hf
    · obtain ⟨r, hr', _, _, h5, h6, h7⟩ := hTop_found_count hr hf
      have : k ∈ kindsOf (r.borrowed.map (fun e => e.1)) := by
        rw [mem_borrowed_keys h5 h6, h7, hc]; omega
      obtain ⟨t, ht, hv⟩ := List.mem_map.1 this
      exact List.mem_map.2 ⟨t, List.mem_flatMap.2 ⟨r, hr', ht⟩, hv⟩
    · exfalso
      rw [hc] at hf
      rcases hpost.last with ⟨_, e⟩ | ⟨r, hr', e⟩
      · omega
      · obtain ⟨D', a, _, _, c, _⟩ := hTop_sound hr hr'
        have := hn.2 D' a (hany D')
        rw [hc] at c
        omega
  have hout : ∀ k ∈ kindsOf (setUpdate [] ((heurCombos w false (reSort hand) m).1.flatMap (fun r => r.borrowed.map (fun e : Tile × Int => e.1)))),
      ∃ D, Legal w D ∧ deficit D (content hand) ≤ m + 1 ∧ content hand k < need D k := by
    intro k hk
    rw [mem_setUpdate] at hk
    rcases hk with hk | hk
    · simp [kindsOf] at hk
    · obtain ⟨t, ht, hv⟩ := List.mem_map.1 hk
      obtain ⟨r, hr', hm⟩ := List.mem_flatMap.1 ht
      rw [heurCombos_eq] at hr'
      obtain ⟨D, a, _, _, c, h5, h6, h7⟩ := hTop_sound hr hr'
      have hb := hpost.bounds r hr'
      have : k ∈ kindsOf (r.borrowed.map (fun e => e.1)) := List.mem_map.2 ⟨t, hm, hv⟩
      rw [mem_borrowed_keys h5 h6, h7, hc] at this
      rw [hc] at c
      exact ⟨D, a, by omega, by omega⟩
  refine ⟨h2, nodup_setUpdate (by simp [kindsOf]), hin, hout, fun hn k => ⟨fun hk => ?_, fun ⟨D, a, b, c⟩ => hin k _ D hn a b c⟩⟩
  obtain ⟨D, a, b, c⟩ := hout k hk
  have := hn.2 D a (hany D)
  exact ⟨D, a, by omega, c⟩

/-- instance: four of a kind.  With the limit lifted the fifth is the only useful tile, although the reported step is the one with
    the limit -/
example : (heurWaitingUseful 0 (.normal 1 1) false (Counter.ofIter (List.replicate 4 ⟨.z, 1, false⟩))).toOption.map
      (fun r => (r.1, r.2.map Tile.view)) = some (1, [(.z, 1)]) ∧
    (heurWaitingUseful 0 (.normal 1 1) true (Counter.ofIter (List.replicate 4 ⟨.z, 1, false⟩))).toOption.map
      (fun r => (r.1, decide ((.z, 1) ∈ r.2.map Tile.view), r.2.length)) = some (1, false, 33) := by
  constructor <;> decide +kernel

/-- **C23.** `PatternMatchWaiting.waiting_and_useful_tiles(hand, False)`, for a hand that does not win yet: the step without the
    limit, and exactly the kinds that a nearest win without the limit lacks. -/
theorem C23_unlimited_pattern_useful (w : Pattern) (hand : TileSet) (hh : HandOK hand)
    (hw : ¬ Wins w (content hand)) (fuel : Nat) (n : Int) (u : List Tile)
    (h : pmWaitingUseful w false fuel hand = some (n, u)) :
    IsStep false w (content hand) n ∧ (u.map Tile.view).Nodup ∧
    ∀ k, k ∈ u.map Tile.view ↔ ∃ D, Legal w D ∧ deficit D (content hand) = n + 1 ∧ content hand k < need D k := by
  have hany : ∀ D, Feasible false D := fun D h => by simp at h
  obtain ⟨c, h1, _, h3, rfl⟩ := (pmWaitingUseful_spec hh fuel n u).1 h
  have hst := (leastLacking_iff_isStep (h := content hand) hh.get_nonneg hw c).1 h1
  rw [← h3] at hst
  refine ⟨hst, nodup_pmUsefulAt w false hand c, fun k => ?_⟩
  have h6 : k ∈ (pmUsefulAt w false hand c).map Tile.view ↔ _ := mem_pmUsefulAt hh
  rw [h6]
  constructor
  · rintro ⟨D, a, b, d, e⟩
    have := hst.2 D a b
    exact ⟨D, a, by omega, e⟩
  · rintro ⟨D, a, d, e⟩
    exact ⟨D, a, hany D, by omega, e⟩

/-- instance: four of a kind, which no win holds; without the limit only the fifth is missing -/
example : (pmWaitingUseful (.normal 1 1) false 3 (Counter.ofIter (List.replicate 4 ⟨.z, 1, false⟩))).map
      (fun r => (r.1, r.2.map Tile.view)) = some (0, [(.z, 1)]) ∧
    winMatch (.normal 1 1) (Counter.ofIter (List.replicate 4 ⟨.z, 1, false⟩)) = false := by
  constructor <;> decide +kernel

/-- **C23**, the exception: `BruteForceWaiting.before_waiting_step(hand, False)` never returns on a hand
    that does not win, and `useful_tiles(hand, False)` is empty whenever it returns. -/
theorem C23_brute_ignores_flag (w : Pattern) (hand : TileSet) (hh : HandOK hand) :
    (¬ Wins w (content hand) → ∀ fuel, bruteBefore w false fuel hand = none) ∧
    (∀ fuel u, bruteUseful w false fuel hand = some u → u = []) := by
  refine ⟨fun hw fuel => ?_, fun fuel u hu => ?_⟩
  · unfold bruteBefore
    rw [if_neg (fun h => hw ((winMatch_iff hh).1 h)), bruteLoop_false]
  · unfold bruteUseful at hu
    split at hu
    · simp at hu
    · rw [bruteUsefulLoop_false] at hu
      simp at hu; exact hu

/-- witness: 1m alone does not contain a pair; the limited call answers 0, the unlimited one never
    answers although 2m … exist. -/
example : ¬ Wins (.normal 1 0) (content (Counter.ofIter [⟨.m,1,false⟩])) ∧
    bruteBefore (.normal 1 0) true 1 (Counter.ofIter [⟨.m,1,false⟩]) = some 0 := by
  refine ⟨fun h => ?_, by decide +kernel⟩
  have := (winMatch_iff (by decide)).2 h
  revert this
  decide +kernel

end Verif.Props
