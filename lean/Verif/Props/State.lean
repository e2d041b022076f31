import Verif.Proofs.StateFold2

/-!
Properties C30 to C35: game states folded over records.
-/
namespace Verif.Props
open Verif.Py Verif.Model Verif.Spec Verif.Proofs

/-! ### C30, C31 -/

/-- **C30.** `passed_events` gives what scanning every event in order gives, the same exception included,
    for every state (nested collections too) and every event sequence, although the filter is evaluated on the
    state it started from. -/
theorem C30_passed_events (s : GState) (es : List Event) : s.passedEvents es = scanEvery s es :=
  passedEvents_eq s es

/-- **C30.** ... and this is the last of the states `with_events` yields. -/
theorem C30_with_events (s : GState) (es : List Event) :
    s.passedEvents es = (s.withEvents es).map (fun l => l.getLastD s) := by
  rw [passedEvents_eq]
  induction es generalizing s with
  | nil => rfl
  | cons e es ih =>
    rw [scanEvery_cons]
    simp only [GState.withEvents, bind, Except.bind, pure, Except.pure]
    cases h : s.scan e with
    | error x => rfl
    | ok s1 =>
      simp only [ih s1]
      cases s1.withEvents es with
      | error x => rfl
      | ok l => cases l <;> simp [Except.map, List.getLastD]

/-- **C31.** Passing `e1 ++ e2` is passing `e1`, then `e2` from the state reached. -/
theorem C31_append (s : GState) (e1 e2 : List Event) :
    s.passedEvents (e1 ++ e2) = (s.passedEvents e1).bind (fun s' => s'.passedEvents e2) := by
  rw [passedEvents_eq, passedEvents_eq, scanEvery_append]
  congr 1
  funext s'
  rw [passedEvents_eq]

/-- **C31.** A deal forgets everything: two states tracking the same thing, with any histories before it,
    agree from the deal on. -/
theorem C31_deal_resets (s t : GState) (hst : sameTracking s t = true) (pre pre' : List Event) (deal : Event)
    (hd : deal.tag = "INIT".toList) (post : List Event)
    (h1 : ∃ s', s.passedEvents pre = .ok s') (h2 : ∃ t', t.passedEvents pre' = .ok t') :
    s.passedEvents (pre ++ deal :: post) = t.passedEvents (pre' ++ deal :: post) := by
  obtain ⟨s', h1⟩ := h1
  obtain ⟨t', h2⟩ := h2
  rw [passedEvents_eq] at h1 h2
  rw [passedEvents_eq, passedEvents_eq, scanEvery_append, scanEvery_append, h1, h2]
  simp only [Except.bind]
  rw [scanEvery_cons, scanEvery_cons]
  have hs : shape s' = shape t' := by
    rw [shape_scanEvery h1, shape_scanEvery h2]
    exact (sameTracking_iff s t).1 hst
  rw [init_scan (decide_eq_true hd) hs]

/-! sample moves used to show that the hypotheses can be met -/

/-- a deal (the fourth player is dealt nothing, as in a record of three players), draw and discard by player 0, a pon of player 1 taking it (tile 21 called, own 20 and 22), a draw,
    an added kan (tile 23), a dora -/
def sampleMoves : List Move :=
  [.deal [0, 0, 0, 2, 5, 40] (fun q => if q = 0 then [0, 4, 8, 21] else if q = 1 then [20, 22, 23, 100] else if q = 2 then [60, 61] else []) [],
   .draw 0 33, .discard 0 21, .meld 1 (ponCode 3 5 3 1 0 0).toNat, .discard 1 100, .other ⟨"REACH".toList, []⟩,
   .draw 0 34, .discard 0 0, .meld 1 (addedKanCode 3 5 3 1 0).toNat, .dora 50]

theorem sample_legal : ∀ m ∈ sampleMoves, LegalMove m := by
  intro m hm
  simp only [sampleMoves, List.mem_cons, List.not_mem_nil, or_false] at hm
  rcases hm with rfl | rfl | rfl | rfl | rfl | rfl | rfl | rfl | rfl | rfl
  · show _ ≠ []
    decide
  · trivial
  · trivial
  · exact ⟨_, C27_pon 1 3 5 3 1 0 0 (by unfold InRange; omega) (by unfold InRange; omega) (by unfold InRange; omega)
      (by unfold InRange; omega) (by unfold InRange; omega) (by unfold InRange; omega)⟩
  · trivial
  · refine ⟨by decide, by decide, by decide, ?_⟩
    intro c d r h hc
    simp only [List.cons.injEq] at h
    have : "REACH".toList = ['R', 'E', 'A', 'C', 'H'] := rfl
    rw [this] at h
    simp only [List.cons.injEq] at h
    obtain ⟨rfl, _⟩ := h
    exact absurd hc (by decide)
  · trivial
  · trivial
  · exact ⟨_, C27_added_kan 1 3 5 3 1 0 (by unfold InRange; omega) (by unfold InRange; omega) (by unfold InRange; omega)
      (by unfold InRange; omega) (by unfold InRange; omega)⟩
  · trivial

/-- the sample is legal for each of the three players -/
theorem sample_legalFor (p : Fin 4) (hp : p.val < 3) : ∀ m ∈ sampleMoves, LegalFor p m := by
  intro m hm
  refine ⟨sample_legal m hm, ?_⟩
  rintro s h more rfl
  simp only [sampleMoves, List.mem_cons, List.not_mem_nil, or_false, reduceCtorEq, Move.deal.injEq] at hm
  obtain ⟨_, rfl, _⟩ := hm
  revert p
  decide

/-- a nested collection of a hand and the discards of player 0 -/
example : scanEvery (.coll ["h".toList, "i".toList] [.hand 0 [7], .coll ["d".toList] [.discards 0 []]])
      (sampleMoves.map Move.event) =
    .ok (.coll ["h".toList, "i".toList] [.hand 0 [4, 8, 33, 34], .coll ["d".toList] [.discards 0 [21, 0]]]) := by rfl

/-! ### C32 -/

/-- **C32.** After any legal moves, from any starting hand, the hand has exactly the tiles held: given by a
    deal or the player's own draw and not taken away since by the player's own discard or meld (or a new deal),
    or there at the start and never taken away.  It never lists a tile twice. -/
theorem C32_hand (p : Fin 4) (l : List Int) (hl : l.Nodup) (ms : List Move) (hm : ∀ m ∈ ms, LegalFor p m) :
    ∃ l', (GState.hand p l).passedEvents (ms.map Move.event) = .ok (.hand p l') ∧ l'.Nodup ∧
      ∀ t, t ∈ l' ↔ Held p t ms ∨ (t ∈ l ∧ ∀ x ∈ ms, ¬ Loses p t x) := by
  obtain ⟨l', h1, h2, h3⟩ := scan_hands p l ms hm
  exact ⟨l', by rw [passedEvents_eq]; exact h1, h3 hl, h2⟩

/-- **C32.** After a deal the hand is what is held since then, whatever the state was before. -/
theorem C32_after_deal (p : Fin 4) (l : List Int) (hl : l.Nodup) (seed : List Int) (hands : Fin 4 → List Int)
    (more : List (Str × Str)) (ms : List Move) (hm : ∀ m ∈ Move.deal seed hands more :: ms, LegalFor p m) :
    ∃ l', (GState.hand p l).passedEvents ((Move.deal seed hands more :: ms).map Move.event) = .ok (.hand p l') ∧
      l'.Nodup ∧ ∀ t, t ∈ l' ↔ Held p t (Move.deal seed hands more :: ms) := by
  obtain ⟨l', h1, h2, h3⟩ := C32_hand p l hl _ hm
  refine ⟨l', h1, h2, ?_⟩
  intro t
  rw [h3]
  constructor
  · rintro (h | ⟨_, h⟩)
    · exact h
    · have h0 : t ∈ hands p := by
        have := h (Move.deal seed hands more) (by simp)
        simpa [Loses] using this
      exact ⟨[], _, ms, rfl, h0, fun x hx => h x (by simp [hx])⟩
  · exact Or.inl

/-- in the sample of three players the third holds the two tiles dealt, and no hand is tracked for the fourth: its deal cannot be read -/
example : (∃ l', (GState.hand 2 []).passedEvents (sampleMoves.map Move.event) = .ok (.hand 2 l') ∧ l'.Nodup ∧
      ∀ t, t ∈ l' ↔ Held 2 t sampleMoves) ∧
    ((GState.hand 3 []).passedEvents (sampleMoves.map Move.event)).toOption = none :=
  ⟨C32_after_deal 2 [] List.nodup_nil _ _ _ sampleMoves.tail (sample_legalFor 2 (by decide)), by decide +kernel⟩

/-- **C32.** Events of other players never change the hand. -/
theorem C32_others (p q : Fin 4) (hq : q ≠ p) (l : List Int) (t : Nat) (code : Nat)
    (hc : ∃ m, meldOf q.val code = .ok m) :
    (GState.hand p l).scan (Move.draw q t).event = .ok (.hand p l) ∧
    (GState.hand p l).scan (Move.discard q t).event = .ok (.hand p l) ∧
    (GState.hand p l).scan (Move.meld q code).event = .ok (.hand p l) := by
  have a := handScan_move p l (m := .draw q t) (legalFor_of_play p trivial rfl)
  have b := handScan_move p l (m := .discard q t) (legalFor_of_play p trivial rfl)
  have c := handScan_move p l (m := .meld q code) (legalFor_of_play p hc rfl)
  simp only [if_neg hq] at a b c
  unfold GState.scan
  simp only [GState.scan?, a, b, c, bind, Except.bind, pure, Except.pure]
  simp

/-- **C32.** For a consistent game since the deal the number of tiles in the hand is the number dealt, plus
    one per draw, minus one per discard, minus the own tiles of the melds. -/
theorem C32_size (p : Fin 4) (l : List Int) (seed : List Int) (hands : Fin 4 → List Int)
    (more : List (Str × Str)) (hnd : (hands p).Nodup) (ms : List Move)
    (hm : ∀ m ∈ Move.deal seed hands more :: ms, LegalFor p m) (hd : ∀ m ∈ ms, m.isDeal = false)
    (hc : Consistent p (Move.deal seed hands more :: ms)) :
    ∃ l', (GState.hand p l).passedEvents ((Move.deal seed hands more :: ms).map Move.event) = .ok (.hand p l') ∧
      (l'.length : Int) = (hands p).length + (ms.map (handChange p)).sum := by
  rw [passedEvents_eq]
  have hdl := hm _ (List.mem_cons_self)
  have h0 : (GState.hand p l).scan (Move.deal seed hands more).event = .ok (.hand p (hands p).eraseDups) := by
    have a := handScan_move p l hdl
    unfold GState.scan
    simp only [GState.scan?, a, bind, Except.bind, pure, Except.pure]
    simp
  have hE : (hands p).eraseDups.length = (hands p).length := by
    have : (hands p).eraseDups.Perm (hands p) := by
      rw [List.perm_ext_iff_of_nodup (nodup_eraseDups _) hnd]
      intro a; rw [List.mem_eraseDups]
    exact this.length_eq
  suffices h : ∃ l', scanEvery (.hand p (hands p).eraseDups) (ms.map Move.event) = .ok (.hand p l') ∧ l'.Nodup ∧
      (∀ t, t ∈ l' ↔ Held p t (Move.deal seed hands more :: ms)) ∧
      (l'.length : Int) = (hands p).length + (ms.map (handChange p)).sum by
    obtain ⟨l', a, _, _, b⟩ := h
    refine ⟨l', ?_, b⟩
    rw [List.map_cons, scanEvery_cons, h0]
    exact a
  induction ms using List.reverseRecOn with
  | nil =>
    refine ⟨_, rfl, nodup_eraseDups _, ?_, by simp [hE]⟩
    intro t
    rw [List.mem_eraseDups]
    constructor
    · intro h; exact ⟨[], _, [], rfl, h, by simp⟩
    · rintro ⟨pre, m, post, he, hg, _⟩
      cases pre with
      | nil =>
        simp only [List.nil_append, List.cons.injEq] at he
        obtain ⟨rfl, _⟩ := he
        exact hg
      | cons y pre => simp at he
  | append_singleton ms m ih =>
    have hsub : ∀ x, x ∈ Move.deal seed hands more :: ms → x ∈ Move.deal seed hands more :: (ms ++ [m]) := by
      intro x hx
      rcases List.mem_cons.1 hx with h | h
      · simp [h]
      · simp [h]
    obtain ⟨l1, a1, a2, a3, a4⟩ := ih (fun x hx => hm x (hsub x hx)) (fun x hx => hd x (by simp [hx]))
      (by
        intro pre x post he
        refine ?_
        have := hc pre x (post ++ [m]) (by rw [← List.cons_append, he]; simp)
        exact this)
    have hml : LegalFor p m := hm m (by simp)
    have hmd : m.isDeal = false := hd m (by simp)
    obtain ⟨l2, b1, b2, b3⟩ := scan_hand p l1 hml
    have hcm := hc (Move.deal seed hands more :: ms) m [] (by simp)
    have hsz := scan_hand_size p l1 a2 hml.1 hmd
      (fun n hn h => hcm.1 n hn ((a3 _).1 h))
      (fun n hn => (a3 _).2 (hcm.2.1 n hn))
      (fun c t hn ho => (a3 _).2 (hcm.2.2 c t hn ho)) l2 b1
    refine ⟨l2, ?_, b3 a2, ?_, ?_⟩
    · rw [List.map_append, scanEvery_append, a1]
      show scanEvery _ [m.event] = _
      rw [scanEvery_cons, b1]; rfl
    · intro t
      rw [b2, a3]
      constructor
      · rintro (hg | ⟨⟨pre, x, post, he, hg, hl⟩, hn⟩)
        · exact ⟨Move.deal seed hands more :: ms, m, [], by simp, hg, by simp⟩
        · refine ⟨pre, x, post ++ [m], by rw [← List.cons_append, he]; simp, hg, ?_⟩
          intro y hy
          rcases List.mem_append.1 hy with h | h
          · exact hl y h
          · simp at h; subst h; exact hn
      · rintro ⟨pre, x, post, he, hg, hl⟩
        rw [← List.cons_append] at he
        rcases List.eq_nil_or_concat post with rfl | ⟨post', y, rfl⟩
        · have := List.append_inj_right' he (by simp)
          simp only [List.cons.injEq, and_true] at this
          subst this
          exact Or.inl hg
        · rw [List.concat_eq_append, show pre ++ x :: (post' ++ [y]) = (pre ++ x :: post') ++ [y] by simp] at he
          have h1 := List.append_inj_left' he (by simp)
          have h2 := List.append_inj_right' he (by simp)
          simp only [List.cons.injEq, and_true] at h2
          subst h2
          exact Or.inr ⟨⟨pre, x, post', h1, hg, fun z hz => hl z (by simp [hz])⟩, hl m (by simp)⟩
    · rw [hsz, a4]
      simp only [List.map_append, List.map_cons, List.map_nil, List.sum_append, List.sum_cons, List.sum_nil]
      omega

/-- the sample is a consistent game for player 0, who holds 4 + 2 - 2 tiles after it -/
example : Held 0 33 sampleMoves ∧ (sampleMoves.map (handChange 0)).sum = 0 ∧ (sampleMoves.map (handChange 1)).sum = -4 := by
  refine ⟨⟨sampleMoves.take 1, .draw 0 33, sampleMoves.drop 2, rfl, ⟨rfl, rfl⟩, ?_⟩, by decide +kernel, by decide +kernel⟩
  intro x hx
  simp only [sampleMoves, List.drop, List.mem_cons, List.not_mem_nil, or_false] at hx
  rcases hx with rfl | rfl | rfl | rfl | rfl | rfl | rfl | rfl <;> simp [Loses]

/-! ### C33 -/

/-- **C33.** Since a deal, with four players: a tile number is invisible exactly when it is one of the 136,
    not the first dora indicator, and no move has shown it, where discarding tile number 0 does not count as
    showing it.  With three players the numbers are 36..135 only, and eight tuples `(0, 0, i)`, `(0, 8, i)`
    are always present. -/
theorem C33_invisible (four : Bool) (l : List InvElem) (seed : List Int) (hands : Fin 4 → List Int)
    (more : List (Str × Str)) (ms : List Move) (hm : ∀ m ∈ Move.deal seed hands more :: ms, LegalMove m)
    (hd : ∀ m ∈ ms, m.isDeal = false) :
    ∃ l', (GState.invisible four l).passedEvents ((Move.deal seed hands more :: ms).map Move.event) =
        .ok (.invisible four l') ∧
      (∀ n, InvElem.num n ∈ l' ↔ ((if four then 0 else 36) ≤ n ∧ n < 136) ∧ some n ≠ seed.getLast? ∧
        ∀ m ∈ ms, ¬ ShowsButZero n m) ∧
      (∀ a b c, InvElem.tup a b c ∈ l' ↔ four = false ∧ a = 0 ∧ (b = 0 ∨ b = 8) ∧ 0 ≤ c ∧ c < 4) := by
  rw [passedEvents_eq]
  have hdl := hm _ (List.mem_cons_self)
  have h := invisibleScan_move four l hdl
  obtain ⟨l', k1, k2, k3⟩ := scan_invisibles four (setSub (initialInvisible four) [.num (seed.getLastD 0)]) ms
    (fun m hx => ⟨hm m (by simp [hx]), hd m hx⟩)
  refine ⟨l', ?_, ?_, ?_⟩
  · rw [List.map_cons, scanEvery_cons]
    unfold GState.scan
    simp only [GState.scan?, h, bind, Except.bind, pure, Except.pure, Option.map_some, Option.getD_some]
    exact k1
  · intro n
    rw [k2, mem_setSub, and_assoc]
    have e1 : InvElem.num n ∉ [InvElem.num (seed.getLastD 0)] ↔ some n ≠ seed.getLast? := by
      have hne : seed ≠ [] := hdl
      cases seed with
      | nil => exact absurd rfl hne
      | cons a s => simp [List.getLastD_cons, List.getLast?_cons]
    rw [e1]
    have e2 : InvElem.num n ∈ initialInvisible four ↔ (if four then 0 else 36) ≤ n ∧ n < 136 := by
      cases four
      · simp only [initialInvisible, Bool.false_eq_true, if_false, List.mem_append, List.mem_flatMap, List.mem_map,
          List.mem_range, InvElem.num.injEq]
        constructor
        · rintro (⟨a, _, b, _, h⟩ | ⟨a, h, rfl⟩)
          · cases h
          · omega
        · rintro ⟨a, b⟩; exact Or.inr ⟨(n - 36).toNat, by omega, by omega⟩
      · simp only [initialInvisible, if_true, List.mem_map, List.mem_range, InvElem.num.injEq]
        constructor
        · rintro ⟨a, h, rfl⟩; omega
        · rintro ⟨a, b⟩; exact ⟨n.toNat, by omega, by omega⟩
    rw [e2]
  · intro a b c
    rw [k3, mem_setSub]
    cases four
    · simp only [initialInvisible, Bool.false_eq_true, if_false, List.mem_append, List.mem_flatMap, List.mem_map,
        List.mem_range, List.mem_singleton, reduceCtorEq, not_false_eq_true, and_true, true_and]
      constructor
      · rintro (⟨x, hx, y, hy, he⟩ | ⟨x, _, he⟩)
        · cases he
          simp at hx
          exact ⟨rfl, hx, by omega, by omega⟩
        · cases he
      · rintro ⟨rfl, hb, h0, h1⟩
        refine Or.inl ⟨b, by simpa using hb, c.toNat, by omega, ?_⟩
        congr 1; omega
    · simp [initialInvisible]

/-- **C33.** So tile number 0 stays invisible after it has been discarded, and with three players the
    numbers of 1m and 9m are missing from the start. -/
theorem C33_tile_zero_missed :
    (∀ l, (GState.invisible true l).scan (Move.discard 0 0).event = .ok (.invisible true l)) ∧
    (∀ n : Int, n < 36 → InvElem.num n ∉ initialInvisible false) := by
  constructor
  · intro l
    have h := invisibleScan_move true l (m := .discard 0 0) trivial
    unfold GState.scan
    simp only [GState.scan?, h, bind, Except.bind, pure, Except.pure]
    rfl
  · intro n hn h
    simp only [initialInvisible, Bool.false_eq_true, if_false, List.mem_append, List.mem_flatMap, List.mem_map,
      List.mem_range, InvElem.num.injEq] at h
    rcases h with ⟨a, _, b, _, h⟩ | ⟨a, h, rfl⟩
    · cases h
    · omega

/-- in the sample, 21 has been shown, 33 has not, and 0 was discarded but is still listed -/
example : (∃ l', (GState.invisible true []).passedEvents (sampleMoves.map Move.event) = .ok (.invisible true l') ∧
    InvElem.num 21 ∉ l' ∧ InvElem.num 33 ∈ l' ∧ InvElem.num 0 ∈ l') := by
  refine ⟨_, rfl, ?_, ?_, ?_⟩ <;> decide +kernel

/-! ### C34 -/

/-- **C34.** Since a deal, the meld list has one entry for every chi, pon, kan or kita of the player, in
    order; a pon has become a kan with the first later added tile of its kind, keeping its borrowed tile and
    its source; every other entry is the meld as decoded. -/
theorem C34_melds (p : Fin 4) (l : List Meld) (seed : List Int) (hands : Fin 4 → List Int)
    (more : List (Str × Str)) (ms : List Move) (hm : ∀ m ∈ Move.deal seed hands more :: ms, LegalMove m)
    (hd : ∀ m ∈ ms, m.isDeal = false) :
    (GState.melds p l).passedEvents ((Move.deal seed hands more :: ms).map Move.event) =
      .ok (.melds p (finalMelds (meldsOf p ms))) := by
  rw [passedEvents_eq, List.map_cons, scanEvery_cons]
  have h := meldScan_move p l (hm _ (List.mem_cons_self))
  have h0 : (GState.melds p l).scan (Move.deal seed hands more).event = .ok (.melds p []) := by
    unfold GState.scan
    simp only [GState.scan?, h, bind, Except.bind, pure, Except.pure]
    rfl
  rw [h0]
  show scanEvery (.melds p []) _ = _
  rw [scan_melds p [] (by simp) ms (fun m hx => ⟨hm m (by simp [hx]), hd m hx⟩)]
  rfl

/-- **C34.** There are as many entries as melds that are not added kans. -/
theorem C34_count (ds : List Meld) :
    (finalMelds ds).length = ds.countP (fun m => decide (m.cls ≠ .addedKan)) := by
  induction ds with
  | nil => rfl
  | cons m ds ih =>
    simp only [finalMelds, List.countP_cons]
    by_cases h : m.cls = .addedKan <;> simp [h, ih]

/-- **C34.** A pon and the added copy it left out together have all four copies of the kind, the called one
    still being the borrowed tile. -/
theorem C34_four_tiles (who src kind unused called s s2 who' src' called' s2' : Int) (hsrc : InRange src 4)
    (hk : InRange kind 34) (hu : InRange unused 4) (hc : InRange called 3) (hs : InRange s 2) (hs2 : InRange s2 4)
    (hsrc' : InRange src' 4) (hc' : InRange called' 3) (hs2' : InRange s2' 4) :
    ∃ pon add, meldOf who (ponCode src kind unused called s s2) = .ok pon ∧
      meldOf who' (addedKanCode src' kind unused called' s2') = .ok add ∧
      (kanOf pon add).borrowedTiles = pon.borrowedTiles ∧ (kanOf pon add).fromWho = pon.fromWho ∧
      ((kanOf pon add).selfTiles ++ (kanOf pon add).borrowedTiles).Perm
        [copyOf kind 0, copyOf kind 1, copyOf kind 2, copyOf kind 3] := by
  refine ⟨_, _, C27_pon who src kind unused called s s2 hsrc hk hu hc hs hs2,
    C27_added_kan who' src' kind unused called' s2' hsrc' hk hu hc' hs2', rfl, rfl, ?_⟩
  simp only [kanOf]
  unfold InRange at *
  have h1 : unused = 0 ∨ unused = 1 ∨ unused = 2 ∨ unused = 3 := by omega
  have h2 : called = 0 ∨ called = 1 ∨ called = 2 := by omega
  have c01 : copyOf kind 0 ≠ copyOf kind 1 := by unfold copyOf; omega
  have c02 : copyOf kind 0 ≠ copyOf kind 2 := by unfold copyOf; omega
  have c03 : copyOf kind 0 ≠ copyOf kind 3 := by unfold copyOf; omega
  have c12 : copyOf kind 1 ≠ copyOf kind 2 := by unfold copyOf; omega
  have c13 : copyOf kind 1 ≠ copyOf kind 3 := by unfold copyOf; omega
  have c23 : copyOf kind 2 ≠ copyOf kind 3 := by unfold copyOf; omega
  have hnd : [copyOf kind 0, copyOf kind 1, copyOf kind 2, copyOf kind 3].Nodup := by
    simp [c01, c02, c03, c12, c13, c23]
  rw [List.perm_ext_iff_of_nodup _ hnd]
  · intro a
    simp only [List.mem_append, List.mem_eraseDups]
    rcases h1 with rfl | rfl | rfl | rfl <;> rcases h2 with rfl | rfl | rfl <;>
      simp [ponTiles, List.filter] <;> grind
  · rw [List.nodup_append]
    refine ⟨nodup_eraseDups _, by simp, ?_⟩
    intro a ha b hb
    rw [List.mem_eraseDups] at ha
    rcases h1 with rfl | rfl | rfl | rfl <;> rcases h2 with rfl | rfl | rfl <;>
      simp [ponTiles, List.filter] at ha hb <;> grind

example : (GState.melds 1 []).passedEvents (sampleMoves.map Move.event) =
    .ok (.melds 1 [⟨.kanFromTriplet, [20, 22, 23], [21], 0⟩]) := by
  have h := C34_melds 1 [] _ _ _ sampleMoves.tail sample_legal (by decide)
  have e : finalMelds (meldsOf 1 sampleMoves.tail) = [⟨.kanFromTriplet, [20, 22, 23], [21], 0⟩] := by decide +kernel
  rw [e] at h
  exact h

/-! ### C35 -/

/-- **C35.** Since a deal, the discard list is the player's discards in order. -/
theorem C35_discards (p : Fin 4) (l : List Int) (seed : List Int) (hands : Fin 4 → List Int)
    (more : List (Str × Str)) (ms : List Move) (hm : ∀ m ∈ Move.deal seed hands more :: ms, LegalMove m)
    (hd : ∀ m ∈ ms, m.isDeal = false) :
    (GState.discards p l).passedEvents ((Move.deal seed hands more :: ms).map Move.event) =
      .ok (.discards p (discardsOf p ms)) := by
  rw [passedEvents_eq, List.map_cons, scanEvery_cons]
  have h := discardScan_move p l (hm _ (List.mem_cons_self))
  have h0 : (GState.discards p l).scan (Move.deal seed hands more).event = .ok (.discards p []) := by
    unfold GState.scan
    simp only [GState.scan?, h, bind, Except.bind, pure, Except.pure]
    rfl
  rw [h0]
  show scanEvery (.discards p []) _ = _
  rw [scan_discards p [] ms (fun m hx => ⟨hm m (by simp [hx]), hd m hx⟩)]
  simp

/-- **C35.** Since a deal, the dora indicators are the last number of the seed followed by the later
    indicators in order. -/
theorem C35_doras (l : List Int) (seed : List Int) (hands : Fin 4 → List Int)
    (more : List (Str × Str)) (ms : List Move) (hm : ∀ m ∈ Move.deal seed hands more :: ms, LegalMove m)
    (hd : ∀ m ∈ ms, m.isDeal = false) :
    ∃ d, seed.getLast? = some d ∧
    (GState.dora l).passedEvents ((Move.deal seed hands more :: ms).map Move.event) =
      .ok (.dora (d :: dorasOf ms)) := by
  have hdl := hm _ (List.mem_cons_self)
  have h := doraScan_move l hdl
  refine ⟨seed.getLastD 0, ?_, ?_⟩
  · have hne : seed ≠ [] := hdl
    cases seed with
    | nil => exact absurd rfl hne
    | cons a s => simp [List.getLastD_cons, List.getLast?_cons]
  · rw [passedEvents_eq, List.map_cons, scanEvery_cons]
    have h0 : (GState.dora l).scan (Move.deal seed hands more).event = .ok (.dora [seed.getLastD 0]) := by
      unfold GState.scan
      simp only [GState.scan?, h, bind, Except.bind, pure, Except.pure]
      rfl
    rw [h0]
    show scanEvery (.dora _) _ = _
    rw [scan_doras _ ms (fun m hx => ⟨hm m (by simp [hx]), hd m hx⟩)]
    simp

example : (GState.discards 0 [3]).passedEvents (sampleMoves.map Move.event) = .ok (.discards 0 [21, 0]) ∧
    (GState.dora []).passedEvents (sampleMoves.map Move.event) = .ok (.dora [40, 50]) := ⟨by rfl, by rfl⟩

end Verif.Props
