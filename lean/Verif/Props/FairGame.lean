import Verif.Spec.FairGame
import Verif.Props.Frontend
import Verif.Props.Translate

/-! C76: the reports of a whole game. -/
namespace Verif.Props
open Verif.Py Verif.Model Verif.Spec Verif.Proofs

theorem extra_meld {x : Meld} (h : MeldShape x) :
    meldExtra x = (if x.cls ≠ .addedKan ∧ x.cls ≠ .kita then 3 else 0) - x.selfTiles.length := by
  have hs := h.sizes
  unfold meldExtra
  cases hc : x.cls <;> rw [hc] at hs <;> simp only at hs ⊢
  · simp [hs.1]
  · simp [hs.1]
  · simp [hs.1]
  · simp [hs.1]
  · rcases hs with ⟨a, b⟩ | ⟨a, b⟩
    · rw [if_pos (List.length_eq_zero_iff.1 b)]; simp [a]
    · rw [if_neg (by intro e; rw [e] at b; cases b)]; simp [a]

theorem count_melds (l : List Meld) :
    meldCount (finalMelds l) = l.countP (fun m => decide (m.cls ≠ .addedKan ∧ m.cls ≠ .kita)) := by
  unfold meldCount
  induction l with
  | nil => rfl
  | cons m l ih =>
    have hu : (decide ((upgraded m l).cls ≠ .kita)) = decide (m.cls ≠ .kita) := by
      unfold upgraded
      split
      · rename_i hc
        split
        · simp [hc, kanOf]
        · rfl
      · rfl
    rw [finalMelds, List.countP_cons]
    by_cases hA : m.cls = .addedKan
    · rw [if_pos hA, ih]; simp [hA]
    · rw [if_neg hA, List.filter_cons, hu]
      by_cases hK : m.cls = .kita
      · simp [hK]; simpa using ih
      · simp [hK, hA]; simpa using ih

/-- moves after the deal: tiles beyond three per meld -/
theorem extra_sum (p : Fin 4) (ms : List Move) (hm : ∀ m ∈ ms, LegalMove m) :
    (ms.map (extra p)).sum = (ms.map (handChange p)).sum + 3 * meldCount (finalMelds (meldsOf p ms)) := by
  rw [count_melds]
  induction ms with
  | nil => rfl
  | cons m ms ih =>
    have ih := ih (fun x hx => hm x (by simp [hx]))
    have hl := hm m (by simp)
    rw [List.map_cons, List.map_cons, List.sum_cons, List.sum_cons, ih]
    cases m with
    | meld q c =>
      obtain ⟨x, hx⟩ := hl
      by_cases hq : q = p
      · have hs := (C28_shape _ _ _ hx).1
        simp only [extra, handChange, meldsOf, hq, if_true]
        subst hq
        simp only [hx, List.countP_cons]
        rw [extra_meld hs]
        by_cases hA : x.cls ≠ .addedKan ∧ x.cls ≠ .kita
        · simp only [hA, ne_eq, not_false_eq_true, and_self, if_true, decide_true]; omega
        · simp only [hA, ne_eq, if_false, decide_false, Bool.false_eq_true]; omega
      · simp only [extra, handChange, meldsOf, hq, if_false]; omega
    | _ => simp only [extra, handChange, meldsOf]; omega

theorem meldsOf_mem {p : Fin 4} {ms : List Move} {x : Meld} (h : x ∈ meldsOf p ms) :
    ∃ c, Move.meld p c ∈ ms ∧ meldOf p.val c = .ok x := by
  induction ms with
  | nil => simp [meldsOf] at h
  | cons m ms ih =>
    have weaken : x ∈ meldsOf p ms → ∃ c, Move.meld p c ∈ m :: ms ∧ meldOf p.val c = .ok x := by
      intro h
      obtain ⟨c, a, b⟩ := ih h
      exact ⟨c, List.mem_cons_of_mem _ a, b⟩
    cases m with
    | meld q c =>
      unfold meldsOf at h
      split at h
      · rename_i hq
        subst hq
        split at h
        · rename_i y hy
          rcases List.mem_cons.1 h with rfl | h
          · exact ⟨c, by simp, hy⟩
          · exact weaken h
        · exact weaken h
      · exact weaken h
    | _ => exact weaken h

/-- the tiles of the tracked melds are tiles of melds -/
theorem finalMelds_tiles {l : List Meld} {m : Meld} (hm : m ∈ finalMelds l) {n : Int} (hn : n ∈ m.selfTiles ++ m.borrowedTiles) :
    ∃ x ∈ l, n ∈ x.selfTiles ++ x.borrowedTiles := by
  induction l with
  | nil => simp [finalMelds] at hm
  | cons x l ih =>
    have weaken : m ∈ finalMelds l → ∃ y ∈ x :: l, n ∈ y.selfTiles ++ y.borrowedTiles := by
      intro h
      obtain ⟨y, a, b⟩ := ih h
      exact ⟨y, List.mem_cons_of_mem _ a, b⟩
    unfold finalMelds at hm
    split at hm
    · exact weaken hm
    · rcases List.mem_cons.1 hm with rfl | hm
      · unfold upgraded at hn
        split at hn
        · split at hn
          · rename_i a ha
            have ha' := List.mem_of_find?_eq_some ha
            simp only [kanOf, List.mem_append, List.mem_eraseDups] at hn
            rcases hn with (hn | hn) | hn
            · exact ⟨x, by simp, by simp [hn]⟩
            · exact ⟨a, by simp [ha'], by simp [hn]⟩
            · exact ⟨x, by simp, by simp [hn]⟩
          · exact ⟨x, by simp, hn⟩
        · exact ⟨x, by simp, hn⟩
      · exact weaken hm

theorem Held_mono {p : Fin 4} {t : Int} {seed : List Int} {hands : Fin 4 → List Int} {more : List (Str × Str)} {pre : List Move}
    (hd : ∀ m ∈ pre, m.isDeal = false) (h : Held p t (Move.deal seed hands more :: pre)) :
    t ∈ hands p ∨ ∃ n : Nat, Move.draw p n ∈ pre ∧ (n : Int) = t := by
  obtain ⟨a, m, b, e, g, _⟩ := h
  cases a with
  | nil =>
    injection e with e1 e2
    subst e1
    exact Or.inl g
  | cons x a =>
    injection e with e1 e2
    have hm : m ∈ pre := by rw [e2]; simp
    cases m with
    | deal => have := hd _ hm; cases this
    | draw q n =>
      obtain ⟨rfl, g⟩ := g
      exact Or.inr ⟨n, hm, g⟩
    | _ => cases g

theorem fair_legalFor {p : Fin 4} {seed : List Int} {hands : Fin 4 → List Int} {more : List (Str × Str)} {ms : List Move}
    (h : FairGame p seed hands more ms) : ∀ m ∈ Move.deal seed hands more :: ms, LegalFor p m :=
  legalFor_deal (h.legal _ List.mem_cons_self) (by intro e; have := h.dealt.2.1; rw [e] at this; cases this)
    (fun m hm => h.legal m (List.mem_cons_of_mem _ hm)) h.oneDeal

theorem fair_prefix {p : Fin 4} {seed : List Int} {hands : Fin 4 → List Int} {more : List (Str × Str)} {ms pre : List Move}
    (h : FairGame p seed hands more ms) (post : List Move) (e : ms = pre ++ post) : FairGame p seed hands more pre := by
  subst e
  refine ⟨?_, ?_, h.dealt, ?_, ?_, ?_⟩
  · intro m hm
    apply h.legal
    rcases List.mem_cons.1 hm with rfl | hm
    · simp
    · simp [hm]
  · exact fun m hm => h.oneDeal m (by simp [hm])
  · exact fun n hn => h.drawn n (by simp [hn])
  · intro a m b e
    exact h.held a m (b ++ post) (by rw [← List.cons_append, e]; simp)
  · intro a t b e
    exact h.turns a t (b ++ post) (by rw [e]; simp)

theorem held_number {p : Fin 4} {seed : List Int} {hands : Fin 4 → List Int} {more : List (Str × Str)} {ms : List Move}
    (h : FairGame p seed hands more ms) {t : Int} (ht : Held p t (Move.deal seed hands more :: ms)) : IsTileNumber t := by
  rcases Held_mono h.oneDeal ht with h1 | ⟨n, h1, h2⟩
  · exact h.dealt.2.2 t h1
  · have := h.drawn n h1
    unfold IsTileNumber
    omega

theorem meld_numbers {p : Fin 4} {seed : List Int} {hands : Fin 4 → List Int} {more : List (Str × Str)} {ms : List Move}
    (h : FairGame p seed hands more ms) : ∀ m ∈ finalMelds (meldsOf p ms), ∀ n ∈ m.selfTiles ++ m.borrowedTiles, IsTileNumber n := by
  intro m hm n hn
  obtain ⟨x, hx, hn⟩ := finalMelds_tiles hm hn
  obtain ⟨c, hc, hx⟩ := meldsOf_mem hx
  have hs := (C28_shape _ _ _ hx).1
  by_cases hk : x.cls = .kita
  · have hb : x.borrowedTiles = [] := by
      have := hs.sizes
      rw [hk] at this
      exact List.length_eq_zero_iff.1 this.2
    rw [hb, List.append_nil] at hn
    obtain ⟨a, b, e⟩ := List.append_of_mem hc
    have := (h.held (Move.deal seed hands more :: a) _ b (by rw [e]; rfl)).2.2 c n rfl ⟨x, hx, hn⟩
    exact held_number (fair_prefix h _ e) this
  · exact hs.real hk n hn

/-- **C76.** When a player who keeps to the rules discards: the report is made from as many different tiles, all real, as
    the player's melds leave of 14, and the tile discarded is among them. -/
theorem C76_size (iter : List Int → List Int) (p : Fin 4) (four : Bool) (seed : List Int) (hands : Fin 4 → List Int)
    (more : List (Str × Str)) (ms : List Move) (h : FairGame p seed hands more ms) (pre : List Move) (t : Nat) (post : List Move)
    (e : ms = pre ++ .discard p t :: post) :
    ∃ (hand : List Int) (inv : List InvElem),
      reportAt iter p four (Move.deal seed hands more :: pre, t) =
        (inGenerator (discardReasoning iter p (Move.discard p t).event hand inv (finalMelds (meldsOf p pre)))).map
          (fun r => { r with somebodyRichii := pre.any (fun m => decide (m.event.tag = "REACH".toList)) }) ∧
      NumberHand hand ∧ (∀ x, x ∈ hand ↔ Held p x (Move.deal seed hands more :: pre)) ∧ (t : Int) ∈ hand ∧
      meldCount (finalMelds (meldsOf p pre)) ≤ 4 ∧ (hand.length : Int) = 14 - 3 * meldCount (finalMelds (meldsOf p pre)) ∧
      ∀ m ∈ finalMelds (meldsOf p pre), ∀ x ∈ m.selfTiles ++ m.borrowedTiles, IsTileNumber x := by
  have hf := fair_prefix h _ e
  obtain ⟨hand, inv, h1, h2, h3, _⟩ := C58_inputs iter p four seed hands more pre t (fair_legalFor hf) hf.oneDeal
  have ht : (t : Int) ∈ hand := by
    rw [h3]
    exact (h.held (Move.deal seed hands more :: pre) _ post (by rw [e]; rfl)).2.1 t rfl
  obtain ⟨l, l1, l2⟩ := C32_size p [] seed hands more hf.dealt.1 pre (fair_legalFor hf) hf.oneDeal hf.held
  obtain ⟨l', m1, m2, m3⟩ := C32_after_deal p [] List.nodup_nil seed hands more pre (fair_legalFor hf)
  rw [l1] at m1
  injection m1 with m1
  injection m1 with _ m1
  subst m1
  have hlen : hand.length = l.length := by
    apply List.Perm.length_eq
    rw [List.perm_ext_iff_of_nodup h2 m2]
    intro x
    rw [h3, m3]
  have hx := extra_sum p pre (fun m hm => hf.legal m (by simp [hm]))
  rw [h.turns pre t post e] at hx
  have hsz : (hand.length : Int) = 14 - 3 * meldCount (finalMelds (meldsOf p pre)) := by
    rw [hlen, l2, hf.dealt.2.1]
    omega
  have hpos : 0 < hand.length := List.length_pos_of_mem ht
  refine ⟨hand, inv, h1, ⟨h2, ?_⟩, h3, ht, by omega, hsz, meld_numbers hf⟩
  intro n hn
  exact held_number hf ((h3 n).1 hn)

/-- **C76.** Its report: none, and the whole call fails, when the hand has already won.  Otherwise there is one, unless no
    tile useful after the expected discards is left, which is a division by zero. -/
theorem C76_outcome (iter : List Int → List Int) (hi : ∀ l, (iter l).Perm l) (p : Fin 4) (four : Bool) (seed : List Int)
    (hands : Fin 4 → List Int) (more : List (Str × Str)) (ms : List Move) (h : FairGame p seed hands more ms)
    (pre : List Move) (t : Nat) (post : List Move) (e : ms = pre ++ .discard p t :: post) :
    (AlreadyWon p (Move.deal seed hands more :: pre) →
      reportAt iter p four (Move.deal seed hands more :: pre, t) = .error .runtimeError) ∧
    (¬ AlreadyWon p (Move.deal seed hands more :: pre) →
      (∃ r, reportAt iter p four (Move.deal seed hands more :: pre, t) = .ok r ∧ ∀ x ∈ r.expected, x.count ≠ 0) ∨
      reportAt iter p four (Move.deal seed hands more :: pre, t) = .error .zeroDivision) := by
  obtain ⟨hand, inv, h1, h2, h3, h4, h5, h6, h7⟩ := C76_size iter p four seed hands more ms h pre t post e
  have hmel : meldsOf p (Move.deal seed hands more :: pre) = meldsOf p pre := rfl
  obtain ⟨o1, o2⟩ := C58_outcome iter hi p (Move.discard p t).event hand h2 inv _ h5 h6 t (by rw [playerDiscard_move p (m := .discard p t) trivial]; simp) h4 h7
  have hw : AlreadyWon p (Move.deal seed hands more :: pre) ↔
      ∃ w ∈ checkedWins (meldCount (finalMelds (meldsOf p pre))), Wins w (heldKinds hand) := by
    constructor
    · rintro ⟨hand', a, b, w, c, d⟩
      refine ⟨w, c, ?_⟩
      have hp : hand'.Perm hand := by
        rw [List.perm_ext_iff_of_nodup a h2.1]
        intro x
        rw [b, h3]
      have : heldKinds hand' = heldKinds hand := by
        funext k
        unfold heldKinds
        rw [(hp.filter _).length_eq]
      rwa [this] at d
    · rintro ⟨w, c, d⟩
      exact ⟨hand, h2.1, h3, w, c, d⟩
  rw [h1, hw]
  constructor
  · intro hh
    rw [o1 hh]
    rfl
  · intro hh
    obtain ⟨a, a1, a2, a3, a4⟩ := o2 (fun w hw' hwin => hh ⟨w, hw', hwin⟩)
    by_cases hc : ∃ x ∈ a.merged, BestItem a.merged x ∧ x.count = 0
    · right
      rw [a3 hc]
      rfl
    · left
      obtain ⟨r, hr⟩ := a4 (fun x hx hb h0 => hc ⟨x, hx, hb, h0⟩)
      refine ⟨_, by rw [hr]; rfl, ?_⟩
      obtain ⟨a', best, mo, m, tile, items, your, rate, strs, ha, hex, _, _, _, _, _, _, rfl⟩ := discardReasoning_inv hr
      rw [a1] at ha
      cases ha
      rw [(expected_eq a.merged).2 a2, Except.ok.injEq] at hex
      intro x hx
      simp only at hx
      obtain ⟨y, hy, rfl⟩ := List.mem_map.1 hx
      rw [← hex] at hy
      have hy' := List.mem_filter.1 hy
      exact fun h0 => hc ⟨y, hy'.1, by simpa using hy'.2, h0⟩

theorem discardPoints_mem {p : Fin 4} {deal : Move} {ms : List Move} (hdeal : deal.isDeal = true) {x : List Move × Nat}
    (h : x ∈ discardPoints p (deal :: ms)) : ∃ pre post, x.1 = deal :: pre ∧ ms = pre ++ .discard p x.2 :: post := by
  unfold discardPoints at h
  obtain ⟨i, _, hi⟩ := List.mem_filterMap.1 h
  cases i with
  | zero =>
    cases deal with
    | deal => simp at hi
    | _ => cases hdeal
  | succ i =>
    rw [List.getElem?_cons_succ] at hi
    cases hm : ms[i]? with
    | none => rw [hm] at hi; cases hi
    | some m =>
      rw [hm] at hi
      cases m with
      | discard q t =>
        simp only at hi
        split at hi
        · rename_i hq
          subst hq
          injection hi with hi
          subst hi
          obtain ⟨hlt, hget⟩ := List.getElem?_eq_some_iff.1 hm
          refine ⟨ms.take i, ms.drop (i + 1), by simp, ?_⟩
          rw [← hget, List.getElem_cons_drop, List.take_append_drop]
        · cases hi
      | _ => cases hi

theorem mem_discardPoints {p : Fin 4} {deal : Move} {ms pre post : List Move} {t : Nat} (e : ms = pre ++ .discard p t :: post) :
    (deal :: pre, t) ∈ discardPoints p (deal :: ms) := by
  unfold discardPoints
  rw [List.mem_filterMap]
  refine ⟨pre.length + 1, by rw [e]; simp, ?_⟩
  rw [e]
  simp

theorem mapM_outcome {α β : Type} (f : α → Except PyErr β) (l : List α) :
    (∃ r, l.mapM f = .ok r ∧ ∀ a ∈ l, ∃ b, f a = .ok b) ∨ ∃ a ∈ l, ∃ x, f a = .error x ∧ l.mapM f = .error x := by
  induction l with
  | nil => exact Or.inl ⟨[], rfl, by simp⟩
  | cons a l ih =>
    cases ha : f a with
    | error x => exact Or.inr ⟨a, by simp, x, ha, by simp [List.mapM_cons, ha, bind, Except.bind]⟩
    | ok b =>
      rcases ih with ⟨r, h1, h2⟩ | ⟨c, hc, x, h1, h2⟩
      · refine Or.inl ⟨b :: r, by simp [List.mapM_cons, ha, h1, bind, Except.bind, pure, Except.pure], ?_⟩
        intro y hy
        rcases List.mem_cons.1 hy with rfl | hy
        · exact ⟨b, ha⟩
        · exact h2 y hy
      · exact Or.inr ⟨c, by simp [hc], x, h1, by simp [List.mapM_cons, ha, h2, bind, Except.bind]⟩

/-- **C76.** The reports of a whole game: one per discard when the player never discards from a hand that has already won
    and there is always a useful tile left; otherwise one of the two exceptions, and `RuntimeError` only for a discard
    from a hand that has already won. -/
theorem C76_game (iter : List Int → List Int) (hi : ∀ l, (iter l).Perm l) (p : Fin 4) (four : Bool) (seed : List Int)
    (hands : Fin 4 → List Int) (more : List (Str × Str)) (ms : List Move) (h : FairGame p seed hands more ms) :
    (∃ l, gameReasonList iter p four ((Move.deal seed hands more :: ms).map Move.event) = .ok l ∧
      l.length = (discardsOf p ms).length ∧
      ∀ pre t post, ms = pre ++ .discard p t :: post → ¬ AlreadyWon p (Move.deal seed hands more :: pre)) ∨
    (gameReasonList iter p four ((Move.deal seed hands more :: ms).map Move.event) = .error .runtimeError ∧
      ∃ pre t post, ms = pre ++ .discard p t :: post ∧ AlreadyWon p (Move.deal seed hands more :: pre)) ∨
    gameReasonList iter p four ((Move.deal seed hands more :: ms).map Move.event) = .error .zeroDivision := by
  have hrep := C58_reports iter p four seed hands more ms (fair_legalFor h) h.oneDeal
  rcases mapM_outcome (reportAt iter p four) (discardPoints p (Move.deal seed hands more :: ms)) with ⟨l, h1, h2⟩ | ⟨x, hx, y, h1, h2⟩
  · left
    rw [h1] at hrep
    refine ⟨l, hrep, (C58_number iter p four seed hands more ms (fair_legalFor h) h.oneDeal l hrep).1, ?_⟩
    intro pre t post e hw
    obtain ⟨b, hb⟩ := h2 _ (mem_discardPoints (deal := Move.deal seed hands more) e)
    rw [(C76_outcome iter hi p four seed hands more ms h pre t post e).1 hw] at hb
    cases hb
  · obtain ⟨pre, post, e1, e2⟩ := discardPoints_mem rfl hx
    obtain ⟨o1, o2⟩ := C76_outcome iter hi p four seed hands more ms h pre x.2 post e2
    rw [← e1, show (x.1, x.2) = x from rfl, h1] at o1 o2
    rw [h2] at hrep
    rw [hrep]
    by_cases hw : AlreadyWon p x.1
    · right; left
      injection o1 hw with o1
      rw [o1]
      exact ⟨rfl, pre, x.2, post, e2, e1 ▸ hw⟩
    · right; right
      rcases o2 hw with ⟨r, hr, _⟩ | hr
      · cases hr
      · injection hr with hr; rw [hr]

/-- **C76.** In every report of such a game all tiles shown have a picture. -/
theorem C76_shown (iter : List Int → List Int) (hi : ∀ l, (iter l).Perm l) (p : Fin 4) (four : Bool) (seed : List Int)
    (hands : Fin 4 → List Int) (more : List (Str × Str)) (ms : List Move) (h : FairGame p seed hands more ms)
    (l : List RoundReasoning) (hl : gameReasonList iter p four ((Move.deal seed hands more :: ms).map Move.event) = .ok l) :
    ∀ r ∈ l, ∀ s ∈ shownBy r, s ∈ pictures := by
  intro r hr s hs
  rw [C58_reports iter p four seed hands more ms (fair_legalFor h) h.oneDeal] at hl
  obtain ⟨x, hx, e⟩ := mapM_inv _ hl r hr
  obtain ⟨pre, post, e1, e2⟩ := discardPoints_mem rfl hx
  obtain ⟨hand, inv, h1, h2, h3, h4, h5, h6, h7⟩ := C76_size iter p four seed hands more ms h pre x.2 post e2
  rw [← e1] at h1
  rw [show (x.1, x.2) = x from rfl, e] at h1
  cases hd : discardReasoning iter p (Move.discard p x.2).event hand inv (finalMelds (meldsOf p pre)) with
  | error y =>
    rw [hd] at h1
    cases y <;> simp [inGenerator, Except.map] at h1
  | ok r' =>
    rw [hd] at h1
    have h1 : Except.ok r = (Except.ok { r' with somebodyRichii := _ } : Except PyErr RoundReasoning) := h1
    injection h1 with h1
    refine C74_shown iter hi p _ hand h2.2 inv _ h7 r' hd x.2 (by rw [playerDiscard_move p (m := .discard p x.2) trivial]; simp) h4 s ?_
    rw [h1] at hs
    exact hs

/-! An instance: the moves of the sample game of C47, in which player 1 calls a pon and adds a fourth tile to it, with 13
    tiles dealt to player 1, and a draw and discard after the kan. -/

def fairHands : Fin 4 → List Int
  | 1 => [20, 22, 40, 44, 48, 53, 57, 61, 65, 72, 73, 76, 80]
  | _ => [0, 4]

def fairPlay : List Move := samplePlay ++ [.draw 1 99, .discard 1 99]

/-- a check for `InTurn` -/
def checkTurns (p : Fin 4) : Int → List Move → Bool
  | _, [] => true
  | s, m :: ms => (match m with | .discard q _ => decide (q ≠ p) || decide (s = 1) | _ => true) && checkTurns p (s + extra p m) ms

theorem inTurn_of_check (p : Fin 4) (ms : List Move) (h : checkTurns p 0 ms = true) : InTurn p ms := by
  have gen : ∀ (ms : List Move) (s : Int), checkTurns p s ms = true → ∀ pre t post, ms = pre ++ .discard p t :: post →
      s + (pre.map (extra p)).sum = 1 := by
    intro ms
    induction ms with
    | nil => intro s _ pre t post e; simp at e
    | cons m ms ih =>
      intro s hs pre t post e
      simp only [checkTurns, Bool.and_eq_true] at hs
      cases pre with
      | nil =>
        simp only [List.nil_append, List.cons.injEq] at e
        rw [e.1] at hs
        simpa using hs.1
      | cons x pre =>
        simp only [List.cons_append, List.cons.injEq] at e
        have := ih _ hs.2 pre t post e.2
        rw [e.1] at this
        rw [List.map_cons, List.sum_cons]
        omega
  intro pre t post e
  have := gen ms 0 h pre t post e
  omega

theorem fair_sample : FairGame 1 [0, 0, 0, 2, 3, 132] fairHands [] fairPlay := by
  refine ⟨?_, ?_, ?_, ?_, ?_, ?_⟩
  · intro m hm
    rcases List.mem_cons.1 hm with rfl | hm
    · show _ ≠ []
      simp
    · rcases List.mem_append.1 hm with hm | hm
      · exact (samplePlay_ok m hm).1
      · simp only [List.mem_cons, List.not_mem_nil, or_false] at hm
        rcases hm with rfl | rfl <;> trivial
  · intro m hm
    rcases List.mem_append.1 hm with hm | hm
    · exact (samplePlay_ok m hm).2.1
    · simp only [List.mem_cons, List.not_mem_nil, or_false] at hm
      rcases hm with rfl | rfl <;> rfl
  · refine ⟨by decide, by decide, ?_⟩
    unfold IsTileNumber
    decide
  · intro n hn
    simp only [fairPlay, samplePlay, List.cons_append, List.nil_append, List.mem_cons, List.not_mem_nil, or_false, Move.draw.injEq, reduceCtorEq, false_or] at hn
    omega
  · apply consistent_of_check
    decide +kernel
  · apply inTurn_of_check
    decide +kernel

end Verif.Props
