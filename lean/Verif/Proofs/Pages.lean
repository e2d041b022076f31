import Verif.Spec.Pages
import Verif.Proofs.Regular4
import Verif.Props.Frontend
import Verif.Props.Paifu
import Verif.Props.WholeRow
import Verif.Proofs.StateCsv

/-! Players and titles of complete records, and when the report on a discard fails. -/
namespace Verif.Proofs
open Verif.Py Verif.Model Verif.Spec Verif.Props

theorem bitSet_players (v : Nat) : (if bitSet (v : Int) 4 then (3 : Int) else 4).toNat = playersOf v := by
  unfold bitSet playersOf
  have : ((v : Int) / 2 ^ 4 % 2 = 1) ↔ v / 16 % 2 = 1 := by omega
  by_cases h : v / 16 % 2 = 1
  · rw [if_pos h, decide_eq_true (this.2 h)]; rfl
  · rw [if_neg h, decide_eq_false (fun x => h (this.1 x))]; rfl

theorem bitSet_winds (v : Nat) : (if bitSet (v : Int) 3 then 2 else 1) = windsOf v := by
  unfold bitSet windsOf
  have : ((v : Int) / 2 ^ 3 % 2 = 1) ↔ v / 8 % 2 = 1 := by omega
  by_cases h : v / 8 % 2 = 1
  · rw [if_pos h, decide_eq_true (this.2 h)]; rfl
  · rw [if_neg h, decide_eq_false (fun x => h (this.1 x))]; rfl

theorem playersOf_le (v : Nat) : playersOf v ≤ 4 := by unfold playersOf; split <;> omega

theorem complete_un {es before : List Event} {go : Event} {header : List Event} {rounds : List (List Event)} {v : Nat}
    (h : CompleteAs es before go header rounds v) : ∃ un, es.find? (fun e => decide (e.tag = "UN".toList)) = some un ∧
    (∃ l : List Int, 4 ≤ l.length ∧ (∀ d ∈ l, 0 ≤ d ∧ d ≤ 20) ∧ un.get "dan".toList = .ok (commaList l)) ∧
    (∃ s, ListsNumbers 4 s ∧ un.get "rate".toList = .ok s) ∧ ∃ s : Str, 3 ≤ s.count ',' ∧ un.get "sx".toList = .ok s := by
  obtain ⟨hp, ⟨a, un, b, hsplit, ha, hun, htext, hnum⟩, _, _⟩ := h
  obtain ⟨hall, _, hbef, ⟨hgo, _, _⟩, hhead, _⟩ := hp
  obtain ⟨u1, u2, u3⟩ := un_harmless (e := un) (by
    have : un ∈ before ++ header := by rw [hsplit]; simp
    rcases List.mem_append.1 this with h | h
    · exact .inl (hbef _ h)
    · exact .inr (hhead _ h)) hun
  refine ⟨un, ?_, ?_, ?_, ?_⟩
  · have hfind : (before ++ header).find? (fun e => decide (e.tag = "UN".toList)) = some un := by
      rw [hsplit, List.find?_append, List.find?_eq_none.2 (by intro x hx; simpa using ha x hx)]
      rw [List.find?_cons_of_pos (by exact decide_eq_true hun)]
      rfl
    have hgu : decide (go.tag = "UN".toList) = false := decide_eq_false (by rw [hgo]; decide +kernel)
    rw [hall, List.append_assoc, List.find?_append]
    rw [List.find?_append] at hfind
    cases hb : before.find? (fun e => decide (e.tag = "UN".toList)) with
    | some x => rw [hb] at hfind; exact hfind
    | none =>
      rw [hb] at hfind
      rw [Option.none_or] at hfind ⊢
      rw [List.cons_append, List.find?_cons_of_neg (by rw [hgu]; decide), List.find?_append, hfind]
      rfl
  · obtain ⟨s, hs⟩ := hnum "dan" (by simp)
    obtain ⟨l, q1, q2, rfl⟩ := u1 s hs
    exact ⟨l, q1, q2, by unfold Event.get; rw [hs]⟩
  · obtain ⟨s, hs⟩ := hnum "rate" (by simp)
    exact ⟨s, u2 s hs, by unfold Event.get; rw [hs]⟩
  · obtain ⟨s, hs⟩ := htext "sx" (by simp)
    exact ⟨s, u3 s hs, by unfold Event.get; rw [hs]⟩

/-- the players of a complete record: as many as its type says, each at their own place, with a rank -/
theorem complete_players {es before : List Event} {go : Event} {header : List Event} {rounds : List (List Event)} {v : Nat}
    (h : CompleteAs es before go header rounds v) {r : TRecord} (hr : TRecord.make es = .ok r) (ht : GameType.make v = .ok r.gameType) :
    r.players.length = playersOf v ∧
    ∀ (k : Nat) p, r.players[k]? = some p → p.index = k ∧ ∃ d : Nat, d ≤ 20 ∧ p.level = .int d := by
  obtain ⟨un, hun, ⟨l, l1, l2, l3⟩, ⟨rs, r1, r2⟩, ⟨sx, s1, s2⟩⟩ := complete_un h
  obtain ⟨un', names, dan, rate, sx', count, p1, _, p3, p4, p5, p6, p7, p8⟩ := C75_players es r hr
  rw [hun, Option.some.injEq] at p1
  subst p1
  have hv := h.parts.go.2.1
  obtain ⟨g, g1, g2, _⟩ := C29_accessors v (by omega) (by omega)
  rw [g1, Except.ok.injEq] at ht
  rw [ht, p6, Except.ok.injEq] at g2
  rw [l3] at p3
  have p3 : numberList (commaList l) = .ok dan := p3
  rw [numberList_comma l (by rintro rfl; simp at l1), Except.ok.injEq] at p3
  rw [r2] at p4
  have p4 : numberList rs = .ok rate := p4
  obtain ⟨rl, z1, z2⟩ := lists_numbers r1
  rw [z1, Except.ok.injEq] at p4
  rw [s2, Except.ok.injEq] at p5
  have hc := bitSet_players v
  rw [← g2] at hc
  have h4 := playersOf_le v
  refine ⟨?_, ?_⟩
  · rw [p7, ← p3, ← p4, ← p5, splitOn_length, List.length_map, hc]
    omega
  · intro k p hk
    obtain ⟨q1, _, q3, _⟩ := p8 k p hk
    refine ⟨q1, ?_⟩
    rw [← p3, List.getElem?_map] at q3
    cases hd : l[k]? with
    | none => rw [hd] at q3; cases q3
    | some d =>
      rw [hd] at q3
      have hd' := l2 d (List.mem_of_getElem? hd)
      refine ⟨d.toNat, by omega, ?_⟩
      rw [← Option.some.inj q3]
      congr 1
      omega

theorem unknown_end {e : Event} (h : Unknown e) : e.tag ≠ "AGARI".toList ∧ e.tag ≠ "RYUUKYOKU".toList :=
  ⟨h.1 "AGARI" (by simp), h.1 "RYUUKYOKU" (by simp)⟩

theorem aside_end {n : Nat} {e : Event} (h : Aside n e) : e.tag ≠ "AGARI".toList ∧ e.tag ≠ "RYUUKYOKU".toList := by
  have key : ∀ s : String, e.tag = s.toList → s.toList ≠ "AGARI".toList → s.toList ≠ "RYUUKYOKU".toList →
      e.tag ≠ "AGARI".toList ∧ e.tag ≠ "RYUUKYOKU".toList := fun s h1 h2 h3 => ⟨h1 ▸ h2, h1 ▸ h3⟩
  cases h with
  | riichi h _ _ _ _ _ => exact key _ h (by decide +kernel) (by decide +kernel)
  | atTable h =>
    cases h with
    | start h _ _ => exact key _ h (by decide +kernel) (by decide +kernel)
    | harmless h =>
      cases h with
      | unknown h => exact unknown_end h
      | shuffle h _ _ => exact key _ h (by decide +kernel) (by decide +kernel)
      | players h _ _ _ => exact key _ h (by decide +kernel) (by decide +kernel)
      | bye h _ _ _ => exact key _ h (by decide +kernel) (by decide +kernel)

theorem move_end {n : Nat} {m : Move} (h : MoveAmong n m) : m.event.tag ≠ "AGARI".toList ∧ m.event.tag ≠ "RYUUKYOKU".toList := by
  have letters : ∀ q : Fin 4, (drawLetter q ≠ 'A' ∧ drawLetter q ≠ 'R') ∧ discardLetter q ≠ 'A' ∧ discardLetter q ≠ 'R' := by decide +kernel
  cases m with
  | deal => exact absurd h id
  | draw q t => exact ⟨fun e => (letters q).1.1 (List.cons.inj (show drawLetter q :: natDigits t = 'A' :: _ from e)).1,
      fun e => (letters q).1.2 (List.cons.inj (show drawLetter q :: natDigits t = 'R' :: _ from e)).1⟩
  | discard q t => exact ⟨fun e => (letters q).2.1 (List.cons.inj (show discardLetter q :: natDigits t = 'A' :: _ from e)).1,
      fun e => (letters q).2.2 (List.cons.inj (show discardLetter q :: natDigits t = 'R' :: _ from e)).1⟩
  | meld q c => exact ⟨show "N".toList ≠ _ by decide +kernel, show "N".toList ≠ _ by decide +kernel⟩
  | dora t => exact ⟨show "DORA".toList ≠ _ by decide +kernel, show "DORA".toList ≠ _ by decide +kernel⟩
  | other e => exact aside_end h.2

theorem round_ends {n w : Nat} {r : List Event} (h : Round n w r) {e : Event} (he : e ∈ r)
    (ht : e.tag = "AGARI".toList ∨ e.tag = "RYUUKYOKU".toList) : Ends n e := by
  cases h with
  | mk seed hands more ms tail number others indicator hsd h2 hn hi oya ho ten hten hl hh hm hend =>
    rcases List.mem_append.1 he with he | he
    · rw [List.map_cons] at he
      rcases List.mem_cons.1 he with rfl | he
      · exact absurd ht (show ¬ ("INIT".toList = _ ∨ "INIT".toList = _) by decide +kernel)
      · obtain ⟨m, hm', rfl⟩ := List.mem_map.1 he
        have := move_end (hm m hm')
        exact absurd ht (by rintro (h | h); exacts [this.1 h, this.2 h])
    · rcases hend e he with h | h
      · exact h
      · have := aside_end h
        exact absurd ht (by rintro (h | h); exacts [this.1 h, this.2 h])

theorem endText_ok (name : TPlayer → Str) {n : Nat} {players : List TPlayer} (hn : players.length = n) {e : Event} (h : Ends n e)
    (hw : WinShown n e) : ∃ s, endText name players e = .ok s := by
  obtain ⟨e1, e2, e3⟩ := C68_ends name players e
  cases h with
  | win h who giver hwho h1 h2 =>
    obtain ⟨g, g1, g2, points, p1, p2⟩ := hw h
    refine ⟨_, e1 h who g players[who] players[g] points points[1] h1 g2 (by simp) (by simp) p2 (by simp)⟩
  | drawn h h1 =>
    cases ht : e.attrib.lookup "type".toList with
    | none => exact ⟨_, e2 h ht⟩
    | some s =>
      obtain ⟨d, hd, rfl⟩ := h1 s ht
      have : ∀ d ∈ drawnReasons, ∃ d' ∈ DRAWN_TYPES, d'.1.toList = d.1.toList := by decide +kernel
      obtain ⟨d', hd', hdd⟩ := this d hd
      exact ⟨_, e3 h d' hd' (by rw [ht, hdd])⟩

theorem deal_get_seed (seed : List Int) (hands : Fin 4 → List Int) (more : List (Str × Str)) :
    (Move.deal seed hands more).event.attrib.lookup "seed".toList = some (commaList seed) := deal_lookup ..

theorem mapM_some' {α β : Type} {f : α → Except PyErr β} {l : List α} (h : ∀ a ∈ l, ∃ b, f a = .ok b) : ∃ r, l.mapM f = .ok r := by
  rcases mapM_outcome f l with ⟨r, h1, _⟩ | ⟨a, ha, x, h1, _⟩
  · exact ⟨r, h1⟩
  · obtain ⟨b, hb⟩ := h a ha
    rw [hb] at h1
    cases h1

/-- every round of a complete record has a title -/
theorem complete_title {es before : List Event} {go : Event} {header : List Event} {rounds : List (List Event)} {v : Nat}
    (h : CompleteAs es before go header rounds v) (hwin : ∀ r ∈ rounds, ∀ e ∈ r, WinShown (playersOf v) e) {r : TRecord}
    (hr : TRecord.make es = .ok r) (ht : GameType.make v = .ok r.gameType)
    (hg : r.games.map (fun g => g.events.map TEvent.ev) = rounds) (name : TPlayer → Str) :
    ∀ g ∈ r.games, ∃ title, g.title name r.gameType r.players = .ok title := by
  intro g hgm
  obtain ⟨deal, play, d1, d2, d3, d4, d5, d6, d7⟩ := C37_games es r hr g hgm
  have hmem : g.events.map TEvent.ev ∈ rounds := by rw [← hg]; exact List.mem_map_of_mem (f := fun g : TGame => g.events.map TEvent.ev) hgm
  have hround := h.parts.rounds _ hmem
  have hlen := (complete_players h hr ht).1
  obtain ⟨ends, hends⟩ : ∃ ends, g.endEvents.mapM (fun e => endText name r.players e.ev) = .ok ends := by
    refine mapM_some' ?_
    intro e he
    rw [d4] at he
    obtain ⟨he1, he2⟩ := List.mem_filter.1 he
    have hev : e.ev ∈ g.events.map TEvent.ev := List.mem_map_of_mem (by rw [d1]; simp [he1])
    exact endText_ok name hlen (round_ends hround hev (of_decide_eq_true he2)) (hwin _ hmem _ hev)
  have hv := h.parts.go.2.1
  have hd : (g.events.map TEvent.ev).head? = some deal.ev := by rw [d1]; rfl
  generalize g.events.map TEvent.ev = evs at hround hd
  cases hround with
  | mk seed hands more ms tail number others indicator hsd h2 hn hi oya ho ten hten hl hh hm hend =>
    rw [List.map_cons, List.cons_append, List.head?_cons, Option.some.injEq] at hd
    rw [← hd, show (Move.deal seed hands more).event.get "seed".toList = .ok (commaList seed) by
      unfold Event.get; rw [deal_get_seed]] at d6
    have d6 : (numberList (commaList seed)).toOption = some g.seeds := d6
    rw [numberList_comma seed (by rw [hsd]; simp)] at d6
    have d6 : some (seed.map Num.int) = some g.seeds := d6
    rw [Option.some.injEq, hsd] at d6
    match others, h2 with
    | a :: b :: rest, _ =>
      have hs : g.seeds = .int (4 * (number / 4 : Nat) + (number % 4 : Nat)) :: .int a :: .int b :: (rest ++ [indicator]).map Num.int := by
        rw [← d6]
        simp only [List.cons_append, List.map_cons, List.cons.injEq, and_true]
        congr 1
        omega
      have := C68_title v (by omega) (by omega) r.gameType ht g (number / 4) (number % 4) a _ (by omega) hs name r.players ends hends
      rw [bitSet_winds, if_pos (by omega)] at this
      exact ⟨_, this⟩

/-- the items for a concealed hand nearer to four melds and a pair -/
theorem concealed_right {iter : List Int → List Int} (hi : ∀ l, (iter l).Perm l) {p : Fin 4} {game : List Move} {hand : List Int}
    (hn : ∀ n ∈ hand, 0 ≤ n ∧ n < 136) {inv : List InvElem} (hclosed : meldCount (finalMelds (meldsOf p game)) = 0)
    (hk : heldKinds hand = handKinds p game) (hnear : NearerMelds p game) {a : Analysis}
    (ha : analyse iter hand inv (finalMelds (meldsOf p game)) = .ok a) :
    ∃ n, HandStep p game n ∧ RightItems (winsFor p game) (handKinds p game) n a.merged ∧
      ((∀ e, HandStep p game e → {k : Kind | Keeps p game e k}.ncard ≤ pairKeepers p game) →
        ∀ k, Keeps p game n k → k ∈ a.merged.map (fun x => x.discard.view)) := by
  obtain ⟨n, m, s1, s2, hlt⟩ := hnear
  rw [← hk] at s1 s2
  obtain ⟨o1, o2, o3⟩ := C57_lower iter hi hand hn inv _ hclosed a ha n m s1 s2 hlt
  have hpk : pairKeepers p game = (Keepers [.unique 7 []] (heldKinds hand) m).ncard := by
    unfold pairKeepers
    rw [← hk]
    congr 1
    ext k
    constructor
    · rintro ⟨x1, j, x2, x3⟩
      have := x2.unique s2
      subst this
      refine ⟨x1, ⟨_, by simp, x3⟩, ?_⟩
      intro w hw i hi
      rw [List.mem_singleton] at hw
      subst hw
      exact le_of_eq (x3.unique hi)
    · rintro ⟨x1, ⟨w, hw, x2⟩, _⟩
      rw [List.mem_singleton] at hw
      subst hw
      exact ⟨x1, m, s2, x2⟩
  rw [hk] at o1 o2 o3
  refine ⟨n, o1, o2, ?_⟩
  intro hle k hkk
  have hfin : {k : Kind | Keeps p game n k}.Finite := by
    refine (List.finite_toSet allKinds).subset ?_
    intro k hkk
    exact mem_allKinds.2 (held_valid (hand := hand) (by rw [hk]; exact hkk.1))
  have hall : {k : Kind | k ∈ a.merged.map (fun x => x.discard.view)} = {k : Kind | Keeps p game n k} := by
    refine Set.eq_of_subset_of_ncard_le ?_ ?_ hfin
    · intro k hkm
      obtain ⟨x, hx, rfl⟩ := List.mem_map.1 hkm
      exact (o2.2 x hx).1
    · rw [ncard_list (s := {k : Kind | k ∈ a.merged.map (fun x => x.discard.view)}) o2.1 (fun x => Iff.rfl), List.length_map, o3, ← hk, ← hpk, hk]
      exact le_of_eq (min_eq_left (hle n o1)).symm
  have : k ∈ {k : Kind | k ∈ a.merged.map (fun x => x.discard.view)} := by rw [hall]; exact hkk
  exact this

/-- when there is nothing to divide by -/
theorem division_iff {iter : List Int → List Int} (hi : ∀ l, (iter l).Perm l) {p : Fin 4} {four : Bool} {seed : List Int}
    {hands : Fin 4 → List Int} {more : List (Str × Str)} {ms : List Move} (h : FairGame p seed hands more ms)
    {pre : List Move} {t : Nat} {post : List Move} (e : ms = pre ++ .discard p t :: post)
    (hnr : NoRedUseful p (Move.deal seed hands more :: pre)) (hcomp : Compared p (Move.deal seed hands more :: pre))
    (hw : ¬ AlreadyWon p (Move.deal seed hands more :: pre)) :
    (NothingLeft p four (Move.deal seed hands more :: pre) →
      reportAt iter p four (Move.deal seed hands more :: pre, t) = .error .zeroDivision) ∧
    (AllCompared p (Move.deal seed hands more :: pre) → ¬ NothingLeft p four (Move.deal seed hands more :: pre) →
      ∃ r, reportAt iter p four (Move.deal seed hands more :: pre, t) = .ok r) := by
  obtain ⟨hand, inv, h1, h2, h3, h4, h5, h6, h7, h8, h9, h10, h11⟩ := report_inputs iter four h e
  obtain ⟨hand', _, _, g2, g3, _, _, g6, _⟩ := C76_size iter p four seed hands more ms h pre t post e
  have hlen : hand.length = hand'.length := by
    have : hand.Perm hand' := (List.perm_ext_iff_of_nodup h2.1 g2.1).2 (fun x => by rw [h3, g3])
    exact this.length_eq
  rw [← hlen] at g6
  have hpd : playerDiscard p (Move.discard p t).event = some (t : Int) := by
    rw [playerDiscard_move p (m := .discard p t) trivial]; simp
  obtain ⟨_, o2⟩ := C58_outcome iter hi p (Move.discard p t).event hand h2 inv _ h5 g6 t hpd h4 h6
  obtain ⟨a, ha, hne, z1, z2⟩ := o2 (fun w hw' hwin => hw ⟨hand, h2.1, h3, w, hw', hwin⟩)
  have hk := handKinds_eq h2.1 h3
  have hitems : ∃ n, HandStep p (Move.deal seed hands more :: pre) n ∧
      RightItems (winsFor p (Move.deal seed hands more :: pre)) (handKinds p (Move.deal seed hands more :: pre)) n a.merged ∧
      (AllCompared p (Move.deal seed hands more :: pre) →
        ∀ k, Keeps p (Move.deal seed hands more :: pre) n k → k ∈ a.merged.map (fun x => x.discard.view)) := by
    rcases hcomp with hopen | ⟨hclosed, hnear⟩
    · obtain ⟨n, q1, q2, q3⟩ := open_right hi h2.2 hopen ha
      rw [hk] at q1 q2 q3
      exact ⟨n, q1, q2, fun _ => q3⟩
    · obtain ⟨n, q1, q2, q3⟩ := concealed_right hi h2.2 hclosed hk hnear ha
      refine ⟨n, q1, q2, fun hall => ?_⟩
      rcases hall with h' | ⟨_, _, h'⟩
      · omega
      · exact q3 h'
  obtain ⟨n, q1, q2, q3⟩ := hitems
  obtain ⟨d2, d4⟩ := q2
  obtain ⟨tiles', lists, _, _, hinv, _⟩ := analyse_inv ha
  have hmi := merged_from hi h2.2 ha
  have hnd' : a.invisible.Nodup := by rw [hinv]; exact setSub_nodup h7
  have h0' : TileNumbers a.invisible := by rw [hinv]; exact setSub_numbers h9
  have count : ∀ x ∈ a.merged, x.count =
      unseenCopies p four (Move.deal seed hands more :: pre) (UsefulAfter p (Move.deal seed hands more :: pre) x.discard.view n) := by
    intro x hx
    rw [count_plain hnd' h0' (hmi x hx).1 (plain_useful h2.2 h3 (hmi x hx).2.2.2
      (fun u hu => hnr n q1 _ (d4 x hx).1 u (((d4 x hx).2.2.2 u).1 hu))) (hmi x hx).2.1, hinv]
    exact congrArg Nat.cast (unseenCopies_eq h7 h10 (x.useful.map Tile.view) _ (d4 x hx).2.2.2)
  have hbest : ∃ x ∈ a.merged, BestItem a.merged x := by
    have hf : a.merged.filter (fun x => decide (BestItem a.merged x)) ≠ [] := by
      have := (expected_eq a.merged).2 hne
      intro hnil
      obtain ⟨x, hx⟩ := List.exists_mem_of_ne_nil _ hne
      obtain ⟨y, hy, hmax⟩ : ∃ y ∈ a.merged, ∀ z ∈ a.merged, z.count ≤ y.count := by
        clear this hnil hx x
        generalize a.merged = l at hne
        clear * - hne
        induction l with
        | nil => exact absurd rfl hne
        | cons b l ih =>
          by_cases hl : l = []
          · subst hl; exact ⟨b, by simp, by simp⟩
          · obtain ⟨y, hy, hm⟩ := ih hl
            by_cases hb : y.count ≤ b.count
            · refine ⟨b, by simp, ?_⟩
              intro z hz
              rcases List.mem_cons.1 hz with rfl | hz
              · exact le_refl _
              · exact le_trans (hm z hz) hb
            · refine ⟨y, by simp [hy], ?_⟩
              intro z hz
              rcases List.mem_cons.1 hz with rfl | hz
              · omega
              · exact hm z hz
      have : y ∈ a.merged.filter (fun x => decide (BestItem a.merged x)) := by
        rw [List.mem_filter]
        refine ⟨hy, decide_eq_true ?_⟩
        intro z hz
        exact .inr ⟨by rw [(d4 y hy).2.1, (d4 z hz).2.1], hmax z hz⟩
      rw [hnil] at this
      cases this
    obtain ⟨x, hx⟩ := List.exists_mem_of_ne_nil _ hf
    obtain ⟨hx1, hx2⟩ := List.mem_filter.1 hx
    exact ⟨x, hx1, of_decide_eq_true hx2⟩
  constructor
  · intro hno
    obtain ⟨x, hx, hxb⟩ := hbest
    have hc := count x hx
    rw [hno n q1 _ (d4 x hx).1] at hc
    rw [h1, z1 ⟨x, hx, hxb, hc⟩]
    rfl
  · intro hall hyes
    obtain ⟨r, hr⟩ := z2 (by
      intro x hx hxb h0
      refine hyes ?_
      intro m hm k hkk
      have hmn : m = n := le_antisymm (by
        obtain ⟨w, w1, w2⟩ := q1.1
        exact hm.2 w w1 n w2) (by
        obtain ⟨w, w1, w2⟩ := hm.1
        exact q1.2 w w1 m w2)
      subst hmn
      obtain ⟨y, hy, rfl⟩ := List.mem_map.1 (q3 hall k hkk)
      have c1 := count y hy
      have c2 : y.count ≤ x.count := by
        rcases hxb y hy with h | h
        · rw [(d4 x hx).2.1, (d4 y hy).2.1] at h; omega
        · exact h.2
      omega)
    exact ⟨_, by rw [h1, hr]; rfl⟩

end Verif.Proofs
