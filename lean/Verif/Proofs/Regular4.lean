import Verif.Proofs.Regular3
import Verif.Props.Record
import Verif.Props.Tags

/-! A complete record can always be built. -/
namespace Verif.Proofs
open Verif.Py Verif.Model Verif.Spec

/-- elements that are accepted with a timestamp -/
def Taken (e : Event) : Prop := ∀ i, TEvent.make i e = .ok ⟨i, e⟩

theorem taken_none {e : Event} (h1 : wholeNumber DRAW_INDICATOR e.tag = none) (h2 : wholeNumber DISCARD_INDICATOR e.tag = none) :
    Taken e := by
  intro i
  unfold TEvent.make
  rw [h1, h2]
  rfl

theorem taken_tag {e : Event} {s : String} (h : e.tag = s.toList) (h1 : wholeNumber DRAW_INDICATOR s.toList = none)
    (h2 : wholeNumber DISCARD_INDICATOR s.toList = none) : Taken e := taken_none (by rw [h]; exact h1) (by rw [h]; exact h2)

theorem taken_harmless {e : Event} (h : Harmless e) : Taken e ∧ isGameInit e = false := by
  cases h with
  | unknown h =>
    exact ⟨taken_none (wholeNumber_none (letters := "TUVW") h.2.1) (wholeNumber_none (letters := "DEFG") h.2.2),
      decide_eq_false (h.1 "INIT" (by simp))⟩
  | shuffle h _ _ => exact ⟨taken_tag h (by decide +kernel) (by decide +kernel), by unfold isGameInit; rw [h]; decide +kernel⟩
  | players h _ _ _ => exact ⟨taken_tag h (by decide +kernel) (by decide +kernel), by unfold isGameInit; rw [h]; decide +kernel⟩
  | bye h _ _ _ => exact ⟨taken_tag h (by decide +kernel) (by decide +kernel), by unfold isGameInit; rw [h]; decide +kernel⟩

theorem taken_atTable {e : Event} (h : AtTable e) : Taken e ∧ isGameInit e = false := by
  cases h with
  | harmless h => exact taken_harmless h
  | start h _ _ => exact ⟨taken_tag h (by decide +kernel) (by decide +kernel), by unfold isGameInit; rw [h]; decide +kernel⟩

theorem taken_aside {n : Nat} {e : Event} (h : Aside n e) : Taken e ∧ isGameInit e = false := by
  cases h with
  | atTable h => exact taken_atTable h
  | riichi h _ _ _ _ _ => exact ⟨taken_tag h (by decide +kernel) (by decide +kernel), by unfold isGameInit; rw [h]; decide +kernel⟩

theorem taken_ends {n : Nat} {e : Event} (h : Ends n e) : Taken e ∧ isGameInit e = false := by
  cases h with
  | win h => exact ⟨taken_tag h (by decide +kernel) (by decide +kernel), by unfold isGameInit; rw [h]; decide +kernel⟩
  | drawn h => exact ⟨taken_tag h (by decide +kernel) (by decide +kernel), by unfold isGameInit; rw [h]; decide +kernel⟩

theorem tile_some {t : Nat} (h : t < 136) : ∃ x, tileFromTenhou (t : Int) = .ok x := by
  obtain ⟨x, hx, _⟩ := tile_str_ok (t := (t : Int)) ⟨by omega, by omega⟩
  exact ⟨x, hx⟩

theorem letters_draw : ∀ q : Fin 4, drawLetter q ∈ DRAW_INDICATOR ∧ drawLetter q ∉ DISCARD_INDICATOR := by decide +kernel
theorem letters_discard : ∀ q : Fin 4, discardLetter q ∈ DISCARD_INDICATOR ∧ discardLetter q ∉ DRAW_INDICATOR := by decide +kernel

theorem letters_init : ∀ q : Fin 4, drawLetter q ≠ 'I' ∧ discardLetter q ≠ 'I' := by decide +kernel

theorem taken_move {n : Nat} {m : Move} (h : MoveAmong n m) : Taken m.event ∧ isGameInit m.event = false := by
  cases m with
  | deal _ _ _ => exact absurd h id
  | draw q t =>
    refine ⟨fun i => ?_, decide_eq_false fun e => (letters_init q).1 (List.cons.inj (show drawLetter q :: natDigits t = 'I' :: _ from e)).1⟩
    obtain ⟨x, hx⟩ := tile_some h.2
    show TEvent.make i ⟨drawLetter q :: natDigits t, _⟩ = _
    unfold TEvent.make
    simp only [wholeNumber_number, if_pos (letters_draw q).1, if_neg (letters_draw q).2, hx]
    rfl
  | discard q t =>
    refine ⟨fun i => ?_, decide_eq_false fun e => (letters_init q).2 (List.cons.inj (show discardLetter q :: natDigits t = 'I' :: _ from e)).1⟩
    obtain ⟨x, hx⟩ := tile_some h.2
    show TEvent.make i ⟨discardLetter q :: natDigits t, _⟩ = _
    unfold TEvent.make
    simp only [wholeNumber_number, if_pos (letters_discard q).1, if_neg (letters_discard q).2, hx]
    rfl
  | meld q c => exact ⟨taken_tag (s := "N") rfl (by decide +kernel) (by decide +kernel), decide_eq_false (show "N".toList ≠ "INIT".toList by decide +kernel)⟩
  | dora t => exact ⟨taken_tag (s := "DORA") rfl (by decide +kernel) (by decide +kernel), decide_eq_false (show "DORA".toList ≠ "INIT".toList by decide +kernel)⟩
  | other e => exact taken_aside h.2

theorem taken_all {es : List Event} (h : ∀ e ∈ es, Taken e) : ∀ i, ∃ ts, makeEvents i es = .ok ts := by
  induction es with
  | nil => exact fun i => ⟨[], rfl⟩
  | cons e es ih =>
    intro i
    obtain ⟨ts, ht⟩ := ih (fun x hx => h x (by simp [hx])) (i + 1)
    refine ⟨⟨i, e⟩ :: ts, ?_⟩
    simp only [makeEvents, h e (by simp) i, ht, bind, Except.bind, pure, Except.pure]

/-- a round: a deal, then elements among which there is no deal -/
theorem round_shape {n w : Nat} {r : List Event} (h : Round n w r) : ∃ deal rest, r = deal :: rest ∧ deal.tag = "INIT".toList ∧ Taken deal ∧
    (∀ e ∈ rest, Taken e ∧ isGameInit e = false) ∧ (∃ seed : List Int, seed ≠ [] ∧ deal.attrib.lookup "seed".toList = some (commaList seed)) ∧
    ∃ oya, deal.attrib.lookup "oya".toList = some (natDigits oya) := by
  cases h with
  | mk seed hands more ms tail number others indicator hsd h2 hn hi oya ho ten hten hl hh hm he =>
    refine ⟨(Move.deal seed hands more).event, ms.map Move.event ++ tail, rfl, rfl, taken_tag (s := "INIT") rfl (by decide +kernel) (by decide +kernel), ?_,
      ⟨seed, by rw [hsd]; simp, deal_lookup ..⟩, oya, ?_⟩
    · intro e hin
      rcases List.mem_append.1 hin with hin | hin
      · obtain ⟨m, hm', rfl⟩ := List.mem_map.1 hin
        exact taken_move (hm m hm')
      · rcases he e hin with h | h
        · exact taken_ends h
        · exact taken_aside h
    · have := deal_more (seed := seed) (hands := hands) (more := more) (a := "oya".toList) ⟨by decide, by decide⟩ ho
      unfold Event.get at this
      split at this
      · next h => cases this; exact h
      · cases this

/-- two ways to cut events before every deal are the same -/
theorem cuts_unique {P : TEvent → Prop} {a b : List (List TEvent)}
    (ha : ∀ g ∈ a, ∃ d r, g = d :: r ∧ P d ∧ ∀ e ∈ r, ¬ P e) (hb : ∀ g ∈ b, ∃ d r, g = d :: r ∧ P d ∧ ∀ e ∈ r, ¬ P e)
    (x y : List TEvent) (hx : ∀ e ∈ x, ¬ P e) (hy : ∀ e ∈ y, ¬ P e) (h : x ++ a.flatten = y ++ b.flatten) : x = y ∧ a = b := by
  induction a generalizing b x y with
  | nil =>
    simp only [List.flatten_nil, List.append_nil] at h
    cases b with
    | nil => simpa using h
    | cons g b =>
      obtain ⟨d, r, rfl, hd, _⟩ := hb g (by simp)
      exact absurd hd (hx d (by rw [h]; simp))
  | cons g a ih =>
    obtain ⟨d, r, rfl, hd, hr⟩ := ha g (by simp)
    cases b with
    | nil =>
      simp only [List.flatten_nil, List.append_nil] at h
      exact absurd hd (hy d (by rw [← h]; simp))
    | cons g' b =>
      obtain ⟨d', r', rfl, hd', hr'⟩ := hb g' (by simp)
      simp only [List.flatten_cons, List.cons_append] at h
      have hxy : x = y ∧ d = d' ∧ r ++ a.flatten = r' ++ b.flatten := by
        clear ih
        induction x generalizing y with
        | nil =>
          cases y with
          | nil => simp only [List.nil_append, List.cons.injEq] at h; exact ⟨rfl, h.1, h.2⟩
          | cons z y =>
            simp only [List.nil_append, List.cons_append, List.cons.injEq] at h
            exact absurd hd (by rw [h.1]; exact hy z (by simp))
        | cons z x ihx =>
          cases y with
          | nil =>
            simp only [List.nil_append, List.cons_append, List.cons.injEq] at h
            exact absurd hd' (by rw [← h.1]; exact hx z (by simp))
          | cons z' y =>
            simp only [List.cons_append, List.cons.injEq] at h
            obtain ⟨rfl, h⟩ := h
            obtain ⟨e1, e2⟩ := ihx y (fun e he => hx e (by simp [he])) (fun e he => hy e (by simp [he])) h
            exact ⟨by rw [e1], e2⟩
      obtain ⟨rfl, rfl, hrest⟩ := hxy
      obtain ⟨rfl, rfl⟩ := ih (fun g hg => ha g (by simp [hg])) (fun g hg => hb g (by simp [hg])) r r' hr hr' hrest
      exact ⟨rfl, rfl⟩

/-- `b` and the lists of `bs` after each other, as events -/
theorem cut_events {bs : List (List Event)} : ∀ {ts : List TEvent}, ts.map TEvent.ev = bs.flatten →
    ∃ gs : List (List TEvent), ts = gs.flatten ∧ List.Forall₂ (fun g b => g.map TEvent.ev = b) gs bs := by
  induction bs with
  | nil =>
    intro ts h
    simp only [List.flatten_nil, List.map_eq_nil_iff] at h
    exact ⟨[], h, .nil⟩
  | cons b bs ih =>
    intro ts h
    rw [List.flatten_cons] at h
    obtain ⟨x, y, rfl, hx, hy⟩ := List.map_eq_append_iff.1 h
    obtain ⟨gs, rfl, hg⟩ := ih hy
    exact ⟨x :: gs, rfl, .cons hx hg⟩

theorem init_iff (e : Event) : isGameInit e = true ↔ e.tag = "INIT".toList := by unfold isGameInit; exact decide_eq_true_iff

theorem noAdjacent {x : List TEvent} {gs : List (List TEvent)} (hx : ∀ e ∈ x, isGameInit e.ev = false)
    (hg : ∀ g ∈ gs, ∃ d r, g = d :: r ∧ r ≠ [] ∧ ∀ e ∈ r, isGameInit e.ev = false) :
    (x ++ gs.flatten).IsChain (fun a b => ¬ (isGameInit a.ev = true ∧ isGameInit b.ev = true)) := by
  have hflat : ∀ l : List TEvent, (∀ e ∈ l, isGameInit e.ev = false) →
      l.IsChain (fun a b => ¬ (isGameInit a.ev = true ∧ isGameInit b.ev = true)) := by
    intro l hl
    induction l with
    | nil => exact .nil
    | cons a l ih =>
      rw [List.isChain_cons]
      refine ⟨fun b _ hab => ?_, ih (fun e he => hl e (by simp [he]))⟩
      rw [hl a (by simp)] at hab
      exact absurd hab.1 (by decide)
  induction gs generalizing x with
  | nil => simpa using hflat x hx
  | cons g gs ih =>
    obtain ⟨d, r, rfl, hne, hr⟩ := hg g (by simp)
    have hrest := ih hr (fun g hg' => hg g (by simp [hg']))
    rw [List.isChain_append]
    refine ⟨hflat x hx, ?_, ?_⟩
    · rw [List.flatten_cons, List.cons_append, List.isChain_cons]
      refine ⟨?_, hrest⟩
      intro b hb
      cases r with
      | nil => exact absurd rfl hne
      | cons y r =>
        simp only [List.cons_append, List.head?_cons, Option.mem_def, Option.some.injEq] at hb
        subst hb
        rw [hr y (by simp)]
        simp
    · intro a ha b _ hab
      rw [hx a (List.mem_of_getLast? ha)] at hab
      exact absurd hab.1 (by decide)

theorem number_list_ok {s : Str} (h : ListsNumbers 1 s) : ∃ l, numberList s = .ok l := by
  obtain ⟨l, h1, _⟩ := lists_numbers h
  exact ⟨l, h1⟩

theorem find_events {l : List TEvent} {a b : List Event} {e : Event} {s : String} (h : l.map TEvent.ev = a ++ e :: b)
    (ha : ∀ x ∈ a, x.tag ≠ s.toList) (he : e.tag = s.toList) (name : String) (v : Str) (hv : e.attrib.lookup name.toList = some v) :
    metaAttr l s name = .ok v := by
  obtain ⟨x, y, rfl, hx, hy⟩ := List.map_eq_append_iff.1 h
  obtain ⟨g, y', rfl, hg, _⟩ := List.map_eq_cons_iff.1 hy
  have hn : x.find? (fun e => decide (e.ev.tag = s.toList)) = none := by
    rw [List.find?_eq_none]
    intro z hz
    have := ha z.ev (by rw [← hx]; exact List.mem_map_of_mem hz)
    simpa using this
  unfold metaAttr
  rw [List.find?_append, hn, List.find?_cons_of_pos (by rw [hg]; exact decide_eq_true he)]
  simp only [Option.none_or, hg, hv]

theorem game_events {l : List TEvent} {g : TGame} (h : TGame.make l = .ok g) : g.events = l := by
  unfold TGame.make at h
  split at h
  · cases h
  · dsimp only at h
    split at h
    · cases h
    · simp only [bind_ok, pure_ok] at h
      obtain ⟨_, _, _, _, _, _, _, _, rfl⟩ := h
      rfl

theorem mapM_inv' {α β : Type} {f : α → Except PyErr β} {l : List α} : ∀ {r : List β}, l.mapM f = .ok r → List.Forall₂ (fun a b => f a = .ok b) l r := by
  induction l with
  | nil =>
    intro r h
    simp only [List.mapM_nil, pure_ok] at h
    subst h
    exact .nil
  | cons a l ih =>
    intro r h
    simp only [List.mapM_cons, bind_ok, pure_ok] at h
    obtain ⟨b, hb, r', hr, rfl⟩ := h
    exact .cons hb (ih hr)

theorem games_events {l : List (List TEvent)} {r : List TGame} (h : List.Forall₂ (fun a b => TGame.make a = .ok b) l r) :
    r.map (fun g => g.events) = l := by
  induction h with
  | nil => rfl
  | cons h _ ih => rw [List.map_cons, ih, game_events h]

theorem map_forall₂ {α β : Type} {f : α → β} {l : List α} {r : List β} (h : List.Forall₂ (fun a b => f a = b) l r) : l.map f = r := by
  induction h with
  | nil => rfl
  | cons h _ ih => rw [List.map_cons, ih, h]

theorem dropWhile_some {α : Type} {p : α → Bool} {l : List α} {a : α} (ha : a ∈ l) (hp : p a = false) : l.dropWhile p ≠ [] := by
  induction l with
  | nil => cases ha
  | cons b l ih =>
    rw [List.dropWhile_cons]
    rcases List.mem_cons.1 ha with rfl | ha
    · rw [hp]; simp
    · split
      · exact ih ha
      · simp

theorem un_harmless {e : Event} (h : Harmless e ∨ AtTable e) (hu : e.tag = "UN".toList) :
    (∀ s, e.attrib.lookup "dan".toList = some s → ∃ l : List Int, 4 ≤ l.length ∧ (∀ d ∈ l, 0 ≤ d ∧ d ≤ 20) ∧ s = commaList l) ∧
    (∀ s, e.attrib.lookup "rate".toList = some s → ListsNumbers 4 s) ∧
    ∀ s, e.attrib.lookup "sx".toList = some s → 3 ≤ s.count ',' := by
  have key : Harmless e := by
    rcases h with h | h
    · exact h
    · cases h with
      | harmless h => exact h
      | start h _ _ => rw [h] at hu; exact absurd hu (by decide +kernel)
  cases key with
  | unknown h => exact absurd hu (h.1 "UN" (by simp))
  | shuffle h _ _ => rw [h] at hu; exact absurd hu (by decide +kernel)
  | players h h1 h2 h3 => exact ⟨h1, h2, h3⟩
  | bye h _ _ _ => rw [h] at hu; exact absurd hu (by decide +kernel)

theorem complete_ok {es before : List Event} {go : Event} {header : List Event} {rounds : List (List Event)} {v : Nat}
    (h : CompleteAs es before go header rounds v) :
    ∃ r, TRecord.make es = .ok r ∧ r.games.map (fun g => g.events.map TEvent.ev) = rounds ∧ GameType.make v = .ok r.gameType := by
  obtain ⟨hp, ⟨a, un, b, hsplit, ha, hun, htext, hnum⟩, hends, front, last, sc, hlast, how, hsc⟩ := h
  obtain ⟨hall, _, hbef, ⟨hgo, hv, htype⟩, hhead, hrounds⟩ := hp
  have hunT := un_harmless (e := un) (by
    have : un ∈ before ++ header := by rw [hsplit]; simp
    rcases List.mem_append.1 this with h | h
    · exact .inl (hbef _ h)
    · exact .inr (hhead _ h)) hun
  have hgoT : Taken go ∧ isGameInit go = false :=
    ⟨taken_tag hgo (by decide +kernel) (by decide +kernel), by unfold isGameInit; rw [hgo]; decide +kernel⟩
  have hheadT : ∀ e ∈ before ++ go :: header, Taken e ∧ isGameInit e = false := by
    intro e he
    rcases List.mem_append.1 he with he | he
    · exact taken_harmless (hbef e he)
    · rcases List.mem_cons.1 he with rfl | he
      · exact hgoT
      · exact taken_atTable (hhead e he)
  obtain ⟨ts, hts⟩ := taken_all (es := es) (by
    intro e he
    rw [hall] at he
    rcases List.mem_append.1 he with he | he
    · exact (hheadT e he).1
    · obtain ⟨r, hr, he⟩ := List.mem_flatten.1 he
      obtain ⟨d, rest, rfl, _, h1, h2, _⟩ := round_shape (hrounds r hr)
      rcases List.mem_cons.1 he with rfl | he
      · exact h1
      · exact (h2 e he).1) 0
  have hmap : ts.map TEvent.ev = es := by
    have := makeEvents_eq _ _ _ hts
    rw [this]
    simp [Function.comp_def]
  rw [hall] at hmap
  obtain ⟨x, y, hxy, hx, hy⟩ := List.map_eq_append_iff.1 hmap
  obtain ⟨gs, rfl, hgs⟩ := cut_events hy
  have hxI : ∀ e ∈ x, isGameInit e.ev = false := fun e he => (hheadT e.ev (by rw [← hx]; exact List.mem_map_of_mem he)).2
  have hgI : ∀ g ∈ gs, ∃ d r, g = d :: r ∧ d.ev.tag = "INIT".toList ∧ (∀ e ∈ r, isGameInit e.ev = false) ∧
      (∃ e ∈ r, isGameEnd e = true) ∧ (∃ seed : List Int, seed ≠ [] ∧ d.ev.attrib.lookup "seed".toList = some (commaList seed)) ∧
      ∃ oya, d.ev.attrib.lookup "oya".toList = some (natDigits oya) := by
    intro g hg
    obtain ⟨i, hi, rfl⟩ := List.mem_iff_getElem.1 hg
    have hlen := hgs.length_eq
    have hb := (List.forall₂_iff_get.1 hgs).2 i hi (by omega)
    simp only [List.get_eq_getElem] at hb
    generalize gs[i] = g at hb
    have hr : rounds[i] ∈ rounds := List.getElem_mem _
    rw [← hb] at hr
    obtain ⟨d, rest, e1, e2, _, e4, e5, e6⟩ := round_shape (hrounds _ hr)
    obtain ⟨d', r', rfl, rfl, rfl⟩ := List.map_eq_cons_iff.1 e1
    refine ⟨d', r', rfl, e2, fun e he => (e4 e.ev (List.mem_map_of_mem he)).2, ?_, e5, e6⟩
    obtain ⟨e, he, hte⟩ := hends _ hr
    rw [List.map_cons] at he
    rcases List.mem_cons.1 he with rfl | he
    · rw [e2] at hte
      exact absurd hte (by decide +kernel)
    · obtain ⟨t, ht, rfl⟩ := List.mem_map.1 he
      refine ⟨t, ht, ?_⟩
      unfold isGameEnd isSomebodyWin isNobodyWin
      rw [Bool.or_eq_true]
      exact hte.imp decide_eq_true decide_eq_true
  have hne : ts ≠ [] := by rintro rfl; simp at hmap
  have hxne : x ≠ [] := by rintro rfl; simp at hx
  obtain ⟨head, games, c1, c2, _, c4, c5⟩ := Verif.Props.C37_chunks ts hne (by
      intro e he
      rw [hxy] at he
      cases x with
      | nil => exact absurd rfl hxne
      | cons z x =>
        simp only [List.cons_append, List.head?_cons, Option.some.injEq] at he
        rw [← he]
        exact of_decide_eq_false (hxI z (by simp))) (by
      intro p q r s hpq
      have hch := noAdjacent hxI (gs := gs) (fun g hg => by
        obtain ⟨d, r, e1, _, e3, ⟨e, he, _⟩, _⟩ := hgI g hg
        exact ⟨d, r, e1, List.ne_nil_of_mem he, e3⟩)
      rw [← hxy, hpq, List.isChain_append, List.isChain_cons_cons] at hch
      exact fun h => hch.2.1.1 ⟨decide_eq_true h.1, decide_eq_true h.2⟩)
  have hcut := cuts_unique (P := fun e => e.ev.tag = "INIT".toList) (a := games) (b := gs)
    c5 (fun g hg => by
      obtain ⟨d, r, e1, e2, e3, _⟩ := hgI g hg
      exact ⟨d, r, e1, e2, fun e he hi => by have := e3 e he; rw [(init_iff _).2 hi] at this; cases this⟩)
    head x c4 (fun e he hi => by have := hxI e he; rw [(init_iff _).2 hi] at this; cases this) (by rw [← List.flatten_cons, c2, hxy])
  obtain ⟨rfl, rfl⟩ := hcut
  -- the head
  have k0 : metaAttr head "GO" "type" = .ok (natDigits v) := by
    refine find_events (a := before) (e := go) (b := header) hx ?_ hgo _ _ ?_
    · intro e he; exact (harmless_tag (hbef e he)).1
    · unfold Event.get at htype
      split at htype
      · next h => cases htype; exact h
      · cases htype
  have hsplit' : ∃ a' b', before ++ go :: header = a' ++ un :: b' ∧ ∀ e ∈ a', e.tag ≠ "UN".toList := by
    have hgu : go.tag ≠ "UN".toList := by rw [hgo]; decide +kernel
    rcases List.append_eq_append_iff.1 hsplit with ⟨c, q1, q2⟩ | ⟨c, q1, q2⟩
    · exact ⟨before ++ go :: c, b, by rw [q2]; simp, by
        intro e he
        rcases List.mem_append.1 he with he | he
        · exact ha e (by rw [q1]; simp [he])
        · rcases List.mem_cons.1 he with rfl | he
          · exact hgu
          · exact ha e (by rw [q1]; simp [he])⟩
    · cases c with
      | nil =>
        simp only [List.append_nil, List.nil_append] at q1 q2
        exact ⟨before ++ [go], b, by rw [← q2]; simp, by
          intro e he
          rcases List.mem_append.1 he with he | he
          · exact ha e (by rw [← q1]; exact he)
          · simp only [List.mem_singleton] at he
            rw [he]; exact hgu⟩
      | cons z c =>
        simp only [List.cons_append, List.cons.injEq] at q2
        obtain ⟨rfl, q2⟩ := q2
        exact ⟨a, c ++ go :: header, by rw [q1]; simp, ha⟩
  obtain ⟨a', b', hs', ha'⟩ := hsplit'
  have hmeta : ∀ (name : String) w, un.attrib.lookup name.toList = some w → metaAttr head "UN" name = .ok w :=
    fun name w hw => find_events (hx.trans hs') ha' hun name w hw
  obtain ⟨t0, z0⟩ := htext "n0" (by simp)
  obtain ⟨t1, z1⟩ := htext "n1" (by simp)
  obtain ⟨t2, z2⟩ := htext "n2" (by simp)
  obtain ⟨t3, z3⟩ := htext "n3" (by simp)
  obtain ⟨t4, z4⟩ := htext "sx" (by simp)
  obtain ⟨t5, z5⟩ := hnum "dan" (by simp)
  obtain ⟨t6, z6⟩ := hnum "rate" (by simp)
  obtain ⟨l5, y5⟩ : ∃ l, numberList t5 = .ok l := by
    obtain ⟨l, q1, _, rfl⟩ := hunT.1 _ z5
    exact ⟨_, numberList_comma l (by rintro rfl; simp at q1)⟩
  obtain ⟨l6, y6⟩ : ∃ l, numberList t6 = .ok l := by
    obtain ⟨l, q1, _⟩ := lists_numbers (hunT.2.1 _ z6)
    exact ⟨l, q1⟩
  obtain ⟨l7, y7⟩ := number_list_ok hsc
  obtain ⟨g, g1, g2, _⟩ := Verif.Props.C29_accessors v (by omega) (by omega)
  obtain ⟨gl, hgl⟩ := mapM_some (f := TGame.make) (l := games) (by
    intro g hg
    obtain ⟨d, r, rfl, e2, _, ⟨e, he, hend⟩, ⟨seed, hsne, hseed⟩, oya, hoya⟩ := hgI g hg
    have m1 : metaAttr [d] "INIT" "seed" = .ok (commaList seed) := find_events (l := [d]) (a := []) (b := []) rfl (by simp) e2 _ _ hseed
    have m2 : metaAttr [d] "INIT" "oya" = .ok (natDigits oya) := find_events (l := [d]) (a := []) (b := []) rfl (by simp) e2 _ _ hoya
    unfold TGame.make
    dsimp only
    cases hdw : r.dropWhile (fun e => !isGameEnd e) with
    | nil =>
      exact absurd hdw (dropWhile_some he (by rw [hend]; rfl))
    | cons f fr =>
      simp only [m1, m2, numberList_comma _ hsne, pyInt_natDigits, bind, Except.bind, pure, Except.pure]
      exact ⟨_, rfl⟩)
  have hglE : gl.map (fun g => g.events.map TEvent.ev) = rounds := by
    rw [show (fun g : TGame => g.events.map TEvent.ev) = (List.map TEvent.ev) ∘ (fun g => g.events) from rfl, ← List.map_map,
      games_events (mapM_inv' hgl)]
    exact map_forall₂ hgs
  obtain ⟨q, hq1, hq2⟩ : ∃ q, ts.getLast? = some q ∧ q.ev = last := by
    have hm : ts.map TEvent.ev = front ++ [last] := by rw [hmap, ← hall, hlast]
    obtain ⟨p1, p2, rfl, _, p4⟩ := List.map_eq_append_iff.1 hm
    obtain ⟨q, p3, rfl, e1, e2⟩ := List.map_eq_cons_iff.1 p4
    rw [List.map_eq_nil_iff] at e2
    subst e2
    exact ⟨q, by simp, e1⟩
  have how' : q.ev.get "owari".toList = .ok sc := by
    unfold Event.get
    rw [hq2, how]
  unfold TRecord.make
  simp only [hts, c1, k0, pyInt_natDigits, g1, hmeta _ _ z0, hmeta _ _ z1, hmeta _ _ z2, hmeta _ _ z3, hmeta _ _ z4, hmeta _ _ z5, hmeta _ _ z6,
    y5, y6, hgl, hq1, how', y7, g2, bind, Except.bind, pure, Except.pure]
  exact ⟨_, rfl, hglE, rfl⟩

end Verif.Proofs
