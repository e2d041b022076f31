import Verif.Proofs.Url

/-!
Properties C36 to C40: grouping by stages, records, standings, URLs, tile constants.
-/
namespace Verif.Props
open Verif.Py Verif.Model Verif.Spec Verif.Proofs

/-! ### C36 -/

/-- **C36.** For every input, stage list and key there is a partition into valid maximal groups such that every
    schedule (ask for a group, read any number of times from it, ask for the next ...) gets the groups in
    order: from each, exactly its first elements, and with each the stages from that of its first element on. -/
theorem C36_schedules {α κ : Type} [DecidableEq κ] (stages : List κ) (key : α → κ) (input : List α) :
    ∃ groups : List (List α), StageGroups stages key input groups ∧
      ∀ reads : List Nat, ∃ ts : List (Tgt κ),
        ts.length = groups.length ∧ (∀ (i : Nat) t g, ts[i]? = some t → groups[i]? = some g → GroupKey stages key g t) ∧
        (SG.start input).consume stages key reads =
          List.zipWith (fun n tg => (tg.1, tg.2.take n)) reads (ts.zip groups) := by
  refine ⟨greedy stages key input.length input, greedy_partition stages key _ _ (Nat.le_refl _), ?_⟩
  intro reads
  have hp := greedy_partition stages key _ input (Nat.le_refl _)
  refine ⟨(greedy stages key input.length input).map (tgtOf stages key), by simp, ?_, ?_⟩
  · intro i t g ht hg
    rw [List.getElem?_map, hg] at ht
    simp only [Option.map_some, Option.some.injEq] at ht
    subst ht
    apply tgtOf_groupKey
    have := (hp.valid g (List.mem_of_getElem? hg)).1
    simpa using this
  · rw [consume_ready stages key reads _ input (Nat.le_refl _) _ (ready_start stages key input)]
    generalize greedy stages key input.length input = gs
    induction gs generalizing reads with
    | nil => simp
    | cons g gs ih =>
      cases reads with
      | nil => rfl
      | cons n reads => simp [ih]

/-- **C36.** The partition is determined by these conditions. -/
theorem C36_unique {α κ : Type} [DecidableEq κ] (stages : List κ) (key : α → κ) (input : List α)
    (g1 g2 : List (List α)) (h1 : StageGroups stages key input g1) (h2 : StageGroups stages key input g2) : g1 = g2 := by
  rw [groups_unique stages key g1 input.length input (Nat.le_refl _) h1,
    groups_unique stages key g2 input.length input (Nat.le_refl _) h2]

/-- **C36.** Reading every group to its end gives back the input. -/
theorem C36_read_all {α κ : Type} [DecidableEq κ] (stages : List κ) (key : α → κ) (input : List α) :
    StageGroups stages key input (groupLists stages key input) := by
  rw [groupLists_eq]
  exact greedy_partition stages key _ _ (Nat.le_refl _)

/-- **C36.** Going back to an old group breaks the partition: read `a` from the first group, ask for the second
    group, then read the first again: it is over, but the element after the second group's first has been taken
    from the shared iterator, and the second group never delivers `b`. -/
theorem C36_stale_group_steals :
    let key : Char → Char := id
    let s0 : SG Char Char := SG.start ['a', 'b', 'b', 'c']
    let (n1, s1) := s0.next ['a'] key
    let g1 : Gen := ⟨(n1.map (·.2)).getD 0, .fresh⟩
    let (x1, s2, g1) := s1.groupNext key g1
    let (n2, s3) := s2.next ['a'] key
    let g2 : Gen := ⟨(n2.map (·.2)).getD 0, .fresh⟩
    let (stale, s4, _) := s3.groupNext key g1
    x1 = some 'a' ∧ stale = none ∧ (s3.readN key 3 g2).1 = ['b', 'b'] ∧ (s4.readN key 3 g2).1 = ['b'] := by
  decide

/-- two stages and an unlisted key: `INIT* other*` twice, with a foreign run between -/
example : groupLists [1, 2] (fun n : Nat => n % 10) [11, 2, 12, 1, 5, 15, 2, 1] = [[11, 2, 12], [1], [5, 15], [2], [1]] := by
  decide

example : (SG.start [11, 2, 12, 1, 5, 15, 2, 1]).consume [1, 2] (fun n : Nat => n % 10) [2, 0, 1, 7] =
    [(.stages [1, 2], [11, 2]), (.stages [1, 2], []), (.unknown (some 5), [5]), (.stages [2], [2])] := by
  decide

/-! ### C37 -/

/-- **C37.** For events whose first is no deal and where no two deals are adjacent: the head chunk is everything
    before the first deal, every further chunk is a deal and what follows up to the next deal, and nothing is
    lost or reordered. -/
theorem C37_chunks (events : List TEvent)
    (hne : events ≠ []) (h0 : ∀ e, events.head? = some e → e.ev.tag ≠ "INIT".toList)
    (hadj : ∀ a x y b, events = a ++ x :: y :: b → ¬ (x.ev.tag = "INIT".toList ∧ y.ev.tag = "INIT".toList)) :
    ∃ head games, recordChunks events = head :: games ∧ (head :: games).flatten = events ∧ head ≠ [] ∧
      (∀ e ∈ head, e.ev.tag ≠ "INIT".toList) ∧
      ∀ g ∈ games, ∃ deal rest, g = deal :: rest ∧ deal.ev.tag = "INIT".toList ∧ ∀ e ∈ rest, e.ev.tag ≠ "INIT".toList := by
  replace h0 : ∀ e, events.head? = some e → isGameInit e.ev = false := fun e he => decide_eq_false (h0 e he)
  replace hadj : ∀ a x y b, events = a ++ x :: y :: b → ¬ (isGameInit x.ev = true ∧ isGameInit y.ev = true) :=
    fun a x y b h hxy => hadj a x y b h ⟨of_decide_eq_true hxy.1, of_decide_eq_true hxy.2⟩
  have hp := C36_read_all [true, false] (fun e : TEvent => isGameInit e.ev) events
  have hdef : recordChunks events = groupLists [true, false] (fun e => isGameInit e.ev) events := rfl
  rw [hdef]
  generalize groupLists [true, false] (fun e : TEvent => isGameInit e.ev) events = gs at *
  have htag : ∀ e : TEvent, isGameInit e.ev = false → e.ev.tag ≠ "INIT".toList := by
    intro e h; simpa [isGameInit] using h
  cases gs with
  | nil => exact absurd hp.concat.symm hne
  | cons head games =>
    have hv := hp.valid head (by simp)
    have hhne : head ≠ [] := by simpa using hv.1
    refine ⟨head, games, rfl, hp.concat, hhne, ?_, ?_⟩
    · intro e he
      apply htag
      refine chunks_head _ head hv ?_ e he
      intro x hx
      apply h0
      rw [← hp.concat]
      cases head with
      | nil => simp at hx
      | cons a l => simpa using hx
    · intro g hg
      obtain ⟨x, r, h1, h2, h3⟩ := chunks_tail _ head games hp.valid hp.maximal (by
        intro a x y b hab
        exact hadj a x y b (by rw [← hab, hp.concat])) g hg
      exact ⟨x, r, h1, by simpa [isGameInit] using h2, fun e he => htag e (h3 e he)⟩

/-- **C37.** A record that is built keeps all events in order, numbered 0, 1, 2, ..., and its head and games are
    those chunks. -/
theorem C37_record (es : List Event) (r : TRecord) (h : TRecord.make es = .ok r) :
    r.events.map (·.ev) = es ∧ r.events.map (·.timestamp) = List.range es.length ∧
    recordChunks r.events = r.head :: r.games.map (·.events) := by
  unfold TRecord.make at h
  rw [bind_ok] at h
  obtain ⟨events, h1, h⟩ := h
  have hev := makeEvents_eq _ _ _ h1
  have : r.events = events ∧ recordChunks events = r.head :: r.games.map (·.events) := by
    split at h
    · cases h
    · next head chunks hc =>
      simp only [bind_ok] at h
      obtain ⟨_, _, _, _, _, _, _, _, _, _, _, _, _, _, _, _, _, _, _, _, _, _, _, _, _, _, games, hg, h⟩ := h
      split at h
      · cases h
      · simp only [bind_ok, pure_ok] at h
        obtain ⟨_, _, _, _, rfl⟩ := h
        exact ⟨rfl, by rw [hc]; simp only; rw [mapM_ok_map TGame.make (·.events) (fun a b => TGame_make_events a b) _ _ hg]⟩
  obtain ⟨rfl, h3⟩ := this
  refine ⟨?_, ?_, h3⟩
  · rw [hev, List.map_map]
    show (es.zipIdx 0).map (fun p => p.1) = es
    simp
  · rw [hev, List.map_map]
    show (es.zipIdx 0).map (fun p => p.2) = List.range es.length
    rw [List.zipIdx_map_snd, List.range_eq_range']

theorem made_from {f : List TEvent → Except PyErr TGame} {l : List (List TEvent)} {r : List TGame} (h : l.mapM f = .ok r) {g : TGame}
    (hg : g ∈ r) : ∃ x ∈ l, f x = .ok g := by
  induction l generalizing r with
  | nil =>
    simp only [List.mapM_nil, pure_ok] at h
    subst h
    cases hg
  | cons a l ih =>
    simp only [List.mapM_cons, bind_ok, pure_ok] at h
    obtain ⟨b, h1, bs, h2, rfl⟩ := h
    rcases List.mem_cons.1 hg with rfl | hg
    · exact ⟨a, List.mem_cons_self .., h1⟩
    · obtain ⟨x, hx, e⟩ := ih h2 hg
      exact ⟨x, List.mem_cons_of_mem _ hx, e⟩

theorem filter_dropWhile {α : Type} (q : α → Bool) (l : List α) : (l.dropWhile (fun e => !q e)).filter q = l.filter q := by
  induction l with
  | nil => rfl
  | cons a l ih =>
    by_cases h : q a = true
    · rw [List.dropWhile_cons_of_neg (by simp [h])]
    · rw [List.dropWhile_cons_of_pos (by simp [h]), ih, List.filter_cons_of_neg h]

theorem meta_single {d : TEvent} {attr : String} {v : Str} (h : metaAttr [d] "INIT" attr = .ok v) :
    d.ev.tag = "INIT".toList ∧ d.ev.get attr.toList = .ok v := by
  unfold metaAttr at h
  by_cases ht : d.ev.tag = "INIT".toList
  · rw [List.find?_cons_of_pos (by simpa using ht)] at h
    refine ⟨ht, ?_⟩
    unfold Event.get
    simp only at h
    split at h
    · next e => rw [e]; exact h
    · cases h
  · rw [List.find?_cons_of_neg (by simpa using ht)] at h
    cases h

/-- **C37.** What a game of a record says about its events: the first is the deal, from which the round and the dealer are read; the
    others are the play; the ends are all wins and draws among the play, and there is one at least. -/
theorem C37_games (es : List Event) (r : TRecord) (h : TRecord.make es = .ok r) (g : TGame) (hg : g ∈ r.games) :
    ∃ deal play, g.events = deal :: play ∧ deal.ev.tag = "INIT".toList ∧ g.playing = play ∧
      g.endEvents = play.filter (fun e => decide (e.ev.tag = "AGARI".toList ∨ e.ev.tag = "RYUUKYOKU".toList)) ∧ g.endEvents ≠ [] ∧
      (deal.ev.get "seed".toList >>= numberList).toOption = some g.seeds ∧
      (deal.ev.get "oya".toList >>= pyInt).toOption = some g.eastIndex := by
  have hmk : TGame.make g.events = .ok g := by
    unfold TRecord.make at h
    rw [bind_ok] at h
    obtain ⟨events, h1, h⟩ := h
    split at h
    · cases h
    · next head chunks hc =>
      simp only [bind_ok] at h
      obtain ⟨_, _, _, _, _, _, _, _, _, _, _, _, _, _, _, _, _, _, _, _, _, _, _, _, _, _, games, hgs, h⟩ := h
      split at h
      · cases h
      · simp only [bind_ok, pure_ok] at h
        obtain ⟨_, _, _, _, rfl⟩ := h
        obtain ⟨c, _, c2⟩ := made_from hgs hg
        rw [TGame_make_events _ _ c2]
        exact c2
  unfold TGame.make at hmk
  split at hmk
  · cases hmk
  · next deal play he =>
    split at hmk
    · cases hmk
    · next first rest hd =>
      simp only [bind_ok, pure_ok] at hmk
      obtain ⟨st, m1, seeds, m2, et, m3, east, m4, hg'⟩ := hmk
      obtain ⟨t1, t2⟩ := meta_single m1
      obtain ⟨_, t3⟩ := meta_single m3
      have hends : g.endEvents = play.filter isGameEnd := by
        rw [← hg']
        show (first :: rest).filter isGameEnd = _
        rw [← hd, filter_dropWhile]
      have hfirst : isGameEnd first = true := by
        have := List.head?_dropWhile_not (fun e => !isGameEnd e) play
        rw [hd] at this
        simpa using this
      refine ⟨deal, play, he, t1, by rw [← hg'], ?_, ?_, ?_, ?_⟩
      · rw [hends]
        apply List.filter_congr
        intro e _
        unfold isGameEnd isSomebodyWin isNobodyWin
        rw [Bool.decide_or]
      · rw [← hg']
        show (first :: rest).filter isGameEnd ≠ []
        rw [List.filter_cons_of_pos hfirst]
        simp
      · rw [t2, ← hg']
        show (numberList st).toOption = some seeds
        rw [m2]
        rfl
      · rw [t3, ← hg']
        show (pyInt et).toOption = some east
        rw [m4]
        rfl

/-- a small complete record: head, two games, both drawn -/
def sampleRecord : List Event :=
  let at' (l : List (String × String)) := l.map (fun p => (p.1.toList, p.2.toList))
  [⟨"GO".toList, at' [("type", "1")]⟩,
   ⟨"UN".toList, at' [("n0", "a"), ("n1", "b"), ("n2", "c"), ("n3", "d"), ("dan", "10,11,12,13"),
      ("rate", "1500.00,1600.00,1700.00,1800.50"), ("sx", "M,F,M,F")]⟩,
   ⟨"INIT".toList, at' [("seed", "0,0,0,1,2,3"), ("oya", "0")]⟩, ⟨"T1".toList, []⟩, ⟨"RYUUKYOKU".toList, []⟩,
   ⟨"INIT".toList, at' [("seed", "1,0,0,1,2,3"), ("oya", "1")]⟩, ⟨"U7".toList, []⟩,
   ⟨"RYUUKYOKU".toList, at' [("owari", "100,-20.0,300,40.0,300,10.0,300,-30.0")]⟩]

example : (TRecord.make sampleRecord).map (fun r =>
      (r.head.map (·.timestamp), r.games.map (fun g => g.events.map (·.timestamp)))) =
    .ok ([0, 1], [[2, 3, 4], [5, 6, 7]]) := by decide +kernel

/-! ### C38 -/

/-- **C38.** Score `i` is entry `2 i` of the final list, point `i` entry `2 i + 1`, in the record reader and,
    with scores in hundreds, in the converter. -/
theorem C38_entries (es : List Event) (r : TRecord) (h : TRecord.make es = .ok r) :
    ∃ e finals, es.getLast? = some e ∧ (e.get "owari".toList >>= numberList) = .ok finals ∧
      (∀ i, r.endScore[i]? = finals[2 * i]?) ∧ (∀ i, r.endPoint[i]? = finals[2 * i + 1]?) := by
  have hev := (C37_record es r h).1
  unfold TRecord.make at h
  rw [bind_ok] at h
  obtain ⟨events, h1, h⟩ := h
  split at h
  · cases h
  · simp only [bind_ok] at h
    obtain ⟨_, _, _, _, _, _, _, _, _, _, _, _, _, _, _, _, _, _, _, _, _, _, _, _, _, _, games, hg, h⟩ := h
    split at h
    · cases h
    · next endEvent hend =>
      simp only [bind_ok, pure_ok] at h
      obtain ⟨_, h2, infos, h3, rfl⟩ := h
      refine ⟨endEvent.ev, infos, ?_, ?_, fun i => everyOther_get _ _, fun i => everyOther_tail_get _ _⟩
      · simp only at hev
        rw [← hev, List.getLast?_map, hend]
        rfl
      · rw [bind_ok]
        exact ⟨_, h2, h3⟩

theorem C38_converter_entries (finals : List Num) (i : Nat) :
    (finalScores finals)[i]? = finals[2 * i]?.map Num.mul100 ∧ (finalPoints finals)[i]? = finals[2 * i + 1]? :=
  ⟨by rw [finalScores, List.getElem?_map, everyOther_get], everyOther_tail_get _ _⟩

/-- **C38.** The rank written for a seat is one plus the number of seats that finish before it (a higher score,
    or the same score and a lower seat). -/
theorem C38_rank (finals : List Num) (n p : Nat) (hn : 2 * n ≤ finals.length) (hp : p < n) :
    ∃ scores : List Num, (∀ i, scores[i]? = finals[2 * i]?) ∧ rankOf finals n p = .ok (place scores n p) := by
  refine ⟨everyOther finals, everyOther_get finals, rankOf_eq finals n p ?_ hp⟩
  rcases Nat.lt_or_ge (everyOther finals).length n with h | h
  · exfalso
    have h1 := everyOther_get finals (everyOther finals).length
    rw [List.getElem?_eq_none (Nat.le_refl _), List.getElem?_eq_getElem (by omega)] at h1
    cases h1
  · exact h

/-- **C38.** Ranks are distinct, lie in 1..n, and a strictly higher score gets a strictly smaller rank, ties going
    to the lower seat. -/
theorem C38_order (finals : List Num) (n p q : Nat) (hn : 2 * n ≤ finals.length) (hp : p < n) (hq : q < n) (hpq : p ≠ q) :
    ∃ i j, rankOf finals n p = .ok i ∧ rankOf finals n q = .ok j ∧ 1 ≤ i ∧ i ≤ n ∧ 1 ≤ j ∧ j ≤ n ∧ i ≠ j ∧
      ∀ a b, finals[2 * p]? = some a → finals[2 * q]? = some b →
        (i < j ↔ (Smaller b a ∨ (¬ Smaller a b ∧ p < q))) := by
  have hlen : n ≤ (everyOther finals).length := by
    obtain ⟨scores, h1, -⟩ := C38_rank finals n p hn hp
    rcases Nat.lt_or_ge (everyOther finals).length n with h | h
    · exfalso
      have h1 := everyOther_get finals (everyOther finals).length
      rw [List.getElem?_eq_none (Nat.le_refl _), List.getElem?_eq_getElem (by omega)] at h1
      cases h1
    · exact h
  refine ⟨_, _, rankOf_eq finals n p hlen hp, rankOf_eq finals n q hlen hq, ?_⟩
  have hl : ((everyOther finals).take n).length = n := by simp; omega
  obtain ⟨⟨sp, hsp, gp⟩, kp⟩ := seatOrder_at _ n p hl hp
  obtain ⟨⟨sq, hsq, gq⟩, kq⟩ := seatOrder_at _ n q hl hq
  rw [place_take _ _ _ hp] at gp kp
  rw [place_take _ _ _ hq] at gq kq
  have hso : (seatOrder ((everyOther finals).take n)).length = n := by
    rw [(seatOrder_perm _).length_eq]; simpa using hl
  have bp : place (everyOther finals) n p ≤ n := by
    rcases Nat.lt_or_ge (place (everyOther finals) n p - 1) n with h | h
    · omega
    · rw [List.getElem?_eq_none (by omega)] at gp; cases gp
  have bq : place (everyOther finals) n q ≤ n := by
    rcases Nat.lt_or_ge (place (everyOther finals) n q - 1) n with h | h
    · omega
    · rw [List.getElem?_eq_none (by omega)] at gq; cases gq
  refine ⟨kp, bp, kq, bq, ?_, ?_⟩
  · intro e
    rw [e, gq] at gp
    simp only [Option.some.injEq, Prod.mk.injEq] at gp
    exact hpq gp.2.symm
  · intro a b ha hb
    exact place_lt_iff (everyOther finals) n p q hlen hp hq hpq a b (by rw [everyOther_get]; exact ha) (by rw [everyOther_get]; exact hb)

/-- **C38.** `str(record)` prints, at the position of each seat's rank, that rank, the player of that seat and
    their point. -/
theorem C38_printed (r : TRecord) (n : Nat) (h1 : r.players.length = n) (h2 : n ≤ r.endScore.length)
    (h3 : n ≤ r.endPoint.length) (p : Nat) (hp : p < n) :
    ∃ pl pt, r.players[p]? = some pl ∧ r.endPoint[p]? = some pt ∧
      r.strParts.2[place r.endScore n p - 1]? = some (place r.endScore n p, pl, pt) :=
  strParts_at r n h1 h2 h3 p hp

/-- a tie between seats 1, 2 and 3, all above seat 0 -/
example : (List.range 4).map (rankOf [.int 100, .dec (-200) 1, .int 300, .int 40, .int 300, .int 10, .int 300, .int (-30)] 4) =
    [.ok 4, .ok 1, .ok 2, .ok 3] := by decide +kernel

example : (TRecord.make sampleRecord).map (fun r => r.strParts.2.map (fun e => (e.1, e.2.1.index))) =
    .ok [(1, 1), (2, 2), (3, 3), (4, 0)] := by decide +kernel

/-! ### C39 -/

/-- **C39.** The log id of a URL built for an id is that id, for every id of URL-safe characters; whatever the
    library does with percent escapes (`decode`) and whether or not `;` separates parameters. -/
theorem C39_inverse (decode : Str → Str) (semi : Bool) (id : Str) (hid : id ≠ [])
    (hsafe : ∀ c ∈ id, c ∉ ['&', ';', '#', '+', '%']) : logIdFromUrl decode semi (logIdToUrl id) = .ok id := by
  have := logId_of_params decode semi "http://tenhou.net/0/".toList [] id [] [] (by decide +kernel) (by decide +kernel) (.inl rfl) hid hsafe
    (by simp) (by simp)
  have e : "http://tenhou.net/0/?log=".toList = "http://tenhou.net/0/".toList ++ '?' :: "log=".toList := by decide +kernel
  rw [List.nil_append, joinWith, List.append_nil] at this
  unfold logIdToUrl
  rw [e, List.append_assoc, List.cons_append]
  exact this

/-- **C39.** Other parameters before it (none of them called `log`), any parameters after it, another address and
    a fragment do not matter. -/
theorem C39_extra_parameters (decode : Str → Str) (semi : Bool) (base frag id : Str) (before after : List Str)
    (hb : '?' ∉ base ∧ '#' ∉ base) (hf : frag = [] ∨ ∃ r, frag = '#' :: r) (hid : id ≠ [])
    (hsafe : ∀ c ∈ id, c ∉ ['&', ';', '#', '+', '%'])
    (h1 : ∀ p ∈ before, Extra (queryText decode) p) (h2 : ∀ p ∈ after, '&' ∉ p ∧ ';' ∉ p ∧ '#' ∉ p) :
    logIdFromUrl decode semi (base ++ '?' :: joinWith '&' (before ++ ("log=".toList ++ id) :: after) ++ frag) = .ok id :=
  logId_of_params decode semi base frag id before after hb.1 hb.2 hf hid hsafe (fun p hp => by rw [← queryText_eq]; exact h1 p hp) h2

/-- **C39.** The download URL is the template with the id and depends on nothing else. -/
theorem C39_download (decode : Str → Str) (semi : Bool) (url id : Str) (h : logIdFromUrl decode semi url = .ok id) :
    downloadUrl decode semi url = .ok ("http://e.mjv.jp/0/log/?".toList ++ id) := by
  unfold downloadUrl; rw [h]; rfl

example : logIdFromUrl (fun s => s) true
    "https://tenhou.net/3/?ts=0&x&blog=9&log=2019010203gm-00a9-0000-abcdef01&tw=2&log=other#n".toList =
    .ok "2019010203gm-00a9-0000-abcdef01".toList := by decide +kernel

example : Extra (queryText (fun s => s)) "tw=2".toList := by
  refine ⟨by decide, by decide, by decide, ?_⟩
  intro n v h hn
  have h1 : splitEq "tw=2".toList = some ("tw".toList, "2".toList) := by decide
  rw [h, splitEq_append hn] at h1
  obtain ⟨rfl, rfl⟩ := Prod.mk.inj (Option.some.inj h1)
  decide

/-! ### C40 -/

/-- **C40.** `doras` concatenates. -/
theorem C40_concat (a b : List Str) (x y : List Str) (ha : doras a = .ok x) (hb : doras b = .ok y) :
    doras (a ++ b) = .ok (x ++ y) := by
  rw [doras_append, ha, hb]; rfl

/-- **C40.** The dora of every indicator is its successor. -/
theorem C40_successor (n : Nat) (s : Char) (shown : List Str) (h : Shows n s shown) : doras [txt n s] = .ok shown := by
  rw [shows_iff] at h
  simp only [doras, dora_table (n, s) h.1, h.2, Except.map, List.append_nil]

/-- **C40.** Any text that is no tile raises. -/
theorem C40_other (a b : List Str) (t : Str) (ha : ∃ x, doras a = .ok x) (h : ∀ n s shown, Shows n s shown → t ≠ txt n s) :
    doras (a ++ t :: b) = .error .keyError := by
  obtain ⟨x, ha⟩ := ha
  rw [doras_append, ha]
  simp only [Except.bind]
  have : doraMap.lookup t = none := by
    apply lookup_none
    intro e he
    obtain ⟨p, hp, h1⟩ := dora_keys e he
    rw [h1]
    exact Ne.symm (h p.1 p.2 _ ((shows_iff _ _ _).2 ⟨hp, rfl⟩))
  simp only [doras, this]
  rfl

/-- **C40.** `initial_tiles` has the stated number of copies of every tile and no other text. -/
theorem C40_initial_count (playerNum : Int) (aka : Bool) (t : Str) :
    (∀ n s, t = txt n s → (∃ shown, Shows n s shown) →
      (initialTiles playerNum aka).count t = copies (decide (playerNum = 3)) aka n s) ∧
    (t ∈ initialTiles playerNum aka → ∃ n s shown, Shows n s shown ∧ t = txt n s) := by
  constructor
  · rintro n s rfl ⟨shown, h⟩
    exact initial_count playerNum aka (n, s) ((shows_iff _ _ _).1 h).1
  · intro h
    obtain ⟨p, hp, h⟩ := initial_mem playerNum aka t h
    exact ⟨p.1, p.2, _, (shows_iff _ _ _).2 ⟨hp, rfl⟩, h⟩

/-- **C40.** 136 tiles, 108 for three players. -/
theorem C40_initial_length (playerNum : Int) (aka : Bool) :
    (initialTiles playerNum aka).length = if playerNum = 3 then 108 else 136 := by
  have h : ∀ three aka : Bool, (initialTiles (if three then 3 else 4) aka).length = if three then 108 else 136 := by
    decide +kernel
  rw [initial_eq, h]
  by_cases h : playerNum = 3 <;> simp [h]

example : doras ["4p".toList, "0s".toList, "7z".toList] =
    .ok ["5p".toList, "0p".toList, "6s".toList, "5z".toList] := by decide +kernel
example : Shows 9 'm' [txt 1 'm'] := by simp [Shows]
example : copies true true 0 'm' = 0 ∧ copies true true 5 's' = 3 ∧ copies false true 5 'm' = 3 ∧ copies false false 0 'p' = 0 := by
  decide

end Verif.Props
