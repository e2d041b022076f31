import Verif.Proofs.Consistent
import Verif.Proofs.NumberText
import Verif.Proofs.Frame
import Verif.Spec.Pages

/-! A check that concrete elements are a complete record, and that its players keep to the rules.  What the check accepts is
    proved to be complete. -/
namespace Verif.Proofs
open Verif.Py Verif.Model Verif.Spec

theorem joinWith_splitOn (sep : Char) (s : Str) : joinWith sep (splitOn sep s) = s := by
  induction s with
  | nil => rfl
  | cons c s ih =>
    unfold splitOn
    split
    · rename_i h
      subst h
      cases e : splitOn c s with
      | nil => exact absurd e (splitOn_ne_nil c s)
      | cons p ps => rw [← e, joinWith.eq_def]; rw [e]; dsimp only; rw [← e, ih]; rfl
    · split
      · rename_i p ps e
        rw [e] at ih
        cases ps with
        | nil => simp only [joinWith] at ih ⊢; rw [ih]
        | cons q qs => simp only [joinWith] at ih ⊢; rw [List.cons_append, ih]
      · rename_i e
        exact absurd e (splitOn_ne_nil sep s)

theorem splitOn_not_mem (sep : Char) (s : Str) : ∀ t ∈ splitOn sep s, sep ∉ t := by
  induction s with
  | nil => intro t ht; rw [splitOn, List.mem_singleton] at ht; subst ht; simp
  | cons c s ih =>
    intro t ht
    unfold splitOn at ht
    split at ht
    · rcases List.mem_cons.1 ht with rfl | ht
      · simp
      · exact ih t ht
    · rename_i hc
      split at ht
      · rename_i p ps e
        rw [e] at ih
        rcases List.mem_cons.1 ht with rfl | ht
        · simp only [List.mem_cons, not_or]
          exact ⟨fun h => hc h.symm, ih p (by simp)⟩
        · exact ih t (by simp [ht])
      · rename_i e
        exact absurd e (splitOn_ne_nil sep s)

theorem lists_of (ts : List Str) (h0 : ts ≠ []) (h : ∀ t ∈ ts, ',' ∉ t ∧ (parseNum t).toOption.isSome = true) (k : Nat)
    (hk : k ≤ ts.length) : ListsNumbers k (joinWith ',' ts) := by
  have : ∃ qs, List.Forall₂ NumberText ts qs := by
    clear h0 hk
    induction ts with
    | nil => exact ⟨[], .nil⟩
    | cons t ts ih =>
      obtain ⟨qs, hq⟩ := ih (fun x hx => h x (by simp [hx]))
      have ht := (h t (by simp)).2
      cases e : parseNum t with
      | error x => rw [e] at ht; cases ht
      | ok n => exact ⟨worth n :: qs, .cons ((parseNum_iff _ _).1 ⟨n, e, rfl⟩) hq⟩
  obtain ⟨qs, hq⟩ := this
  exact ⟨ts, qs, h0, fun t ht => (h t ht).1, hq, hk, rfl⟩

/-! ### Values of attributes -/

def numbersB (k : Nat) (s : Str) : Bool :=
  decide (k ≤ (splitOn ',' s).length) && (splitOn ',' s).all (fun t => (parseNum t).toOption.isSome)

theorem numbersB_ok {k : Nat} {s : Str} (h : numbersB k s = true) : ListsNumbers k s := by
  simp only [numbersB, Bool.and_eq_true, decide_eq_true_eq, List.all_eq_true] at h
  have := lists_of (splitOn ',' s) (splitOn_ne_nil _ _) (fun t ht => ⟨splitOn_not_mem _ _ t ht, h.2 t ht⟩) k h.1
  rwa [joinWith_splitOn] at this

/-- the attribute, if it is there, is as `p` says -/
def ifGiven (e : Event) (k : String) (p : Str → Bool) : Bool := match e.attrib.lookup k.toList with | none => true | some s => p s

theorem ifGiven_ok {e : Event} {k : String} {p : Str → Bool} (h : ifGiven e k p = true) : ∀ s, e.attrib.lookup k.toList = some s → p s = true := by
  intro s hs
  rw [ifGiven, hs] at h
  exact h

def natOf (e : Event) (k : String) : Option Nat :=
  match e.attrib.lookup k.toList with
  | none => none
  | some s => match pyInt s with
    | .ok n => if natDigits n.toNat = s then some n.toNat else none
    | .error _ => none

theorem get_of_lookup' {e : Event} {k s : Str} (h : e.attrib.lookup k = some s) : e.get k = .ok s := by
  unfold Event.get
  rw [h]

theorem natOf_ok {e : Event} {k : String} {n : Nat} (h : natOf e k = some n) : e.attrib.lookup k.toList = some (natDigits n) := by
  unfold natOf at h
  split at h
  · cases h
  · rename_i s hs
    split at h
    · split at h
      · rename_i hd
        rw [Option.some.injEq] at h
        rw [← h, hd, hs]
      · cases h
    · cases h

def intsIn (s : Str) : Option (List Int) :=
  match (splitOn ',' s).mapM pyInt with
  | .ok l => if commaList l = s then some l else none
  | .error _ => none

theorem intsIn_ok {s : Str} {l : List Int} (h : intsIn s = some l) : s = commaList l := by
  unfold intsIn at h
  split at h
  · split at h
    · rename_i hd
      rw [Option.some.injEq] at h
      rw [← h, hd]
    · cases h
  · cases h

def intsOf (e : Event) (k : String) : Option (List Int) := match e.attrib.lookup k.toList with | none => none | some s => intsIn s

theorem intsOf_ok {e : Event} {k : String} {l : List Int} (h : intsOf e k = some l) : e.attrib.lookup k.toList = some (commaList l) := by
  unfold intsOf at h
  split at h
  · cases h
  · rename_i s hs
    rw [hs, intsIn_ok h]

def whoOf (e : Event) : Option Int := match e.attrib.lookup "who".toList with | none => none | some s => (pyInt s).toOption

theorem whoOf_ok {e : Event} {n : Int} (h : whoOf e = some n) (h0 : 0 ≤ n) : Who n.toNat e := by
  unfold whoOf at h
  split at h
  · cases h
  · rename_i s hs
    cases hp : pyInt s with
    | error x => rw [hp] at h; cases h
    | ok m =>
      rw [hp] at h
      simp only [Except.toOption, Option.some.injEq] at h
      refine ⟨s, get_of_lookup' hs, ?_⟩
      rw [hp, h, Int.toNat_of_nonneg h0]

def tilesB (l : List Int) : Bool := l.all (fun t => decide (0 ≤ t ∧ t < 136))

theorem tilesB_ok {l : List Int} (h : tilesB l = true) : ∀ t ∈ l, IsTile t := by
  intro t ht
  have := List.all_eq_true.1 h t ht
  rw [decide_eq_true_eq] at this
  exact this

/-! ### Elements -/

def numberedTag (tag : Str) : Bool :=
  match tag with
  | c :: d :: _ => "TUVWDEFG".toList.contains c && decide ('0' ≤ d ∧ d ≤ '9')
  | _ => false

def quietB (e : Event) : Bool :=
  decide (e.tag ≠ "INIT".toList) && decide (e.tag ≠ "N".toList) && decide (e.tag ≠ "DORA".toList) && !numberedTag e.tag

theorem quietB_ok {e : Event} (h : quietB e = true) : Quiet e := by
  simp only [quietB, Bool.and_eq_true, decide_eq_true_eq, Bool.not_eq_true'] at h
  refine ⟨h.1.1.1, h.1.1.2, h.1.2, ?_⟩
  intro c d r ht hc hd
  have := h.2
  rw [ht, numberedTag] at this
  rw [Bool.and_eq_false_iff] at this
  rcases this with h' | h'
  · simp only [List.contains_eq_mem, decide_eq_false_iff_not] at h'
    exact h' hc
  · rw [decide_eq_false_iff_not] at h'
    exact h' hd

def harmlessB (e : Event) : Bool :=
  if e.tag = "SHUFFLE".toList then (e.attrib.lookup "seed".toList).isSome
  else if e.tag = "UN".toList then
    ifGiven e "dan" (fun s => match intsIn s with
      | some l => decide (4 ≤ l.length) && l.all (fun d => decide (0 ≤ d ∧ d ≤ 20))
      | none => false) &&
    ifGiven e "rate" (numbersB 4) && ifGiven e "sx" (fun s => decide (3 ≤ s.count ','))
  else if e.tag = "BYE".toList then match whoOf e with
    | some n => decide (0 ≤ n ∧ n < 4)
    | none => false
  else false

theorem harmlessB_ok {e : Event} (h : harmlessB e = true) : Harmless e := by
  unfold harmlessB at h
  split at h
  · rename_i ht
    obtain ⟨s, hs⟩ := Option.isSome_iff_exists.1 h
    exact .shuffle e ht s (get_of_lookup' hs)
  · split at h
    · rename_i ht
      simp only [Bool.and_eq_true] at h
      refine .players e ht ?_ (fun s hs => numbersB_ok (ifGiven_ok h.1.2 s hs)) (fun s hs => of_decide_eq_true (ifGiven_ok h.2 s hs))
      intro s hs
      have := ifGiven_ok h.1.1 s hs
      split at this
      · rename_i l hl
        simp only [Bool.and_eq_true, decide_eq_true_eq, List.all_eq_true] at this
        exact ⟨l, this.1, this.2, intsIn_ok hl⟩
      · cases this
    · split at h
      · rename_i ht
        split at h
        · rename_i n hn
          have hd := of_decide_eq_true h
          exact .bye e ht n.toNat (by omega) (whoOf_ok hn hd.1)
        · cases h
      · cases h

def atTableB (e : Event) : Bool := harmlessB e || (decide (e.tag = "TAIKYOKU".toList) && (natOf e "oya").isSome)

theorem atTableB_ok {e : Event} (h : atTableB e = true) : AtTable e := by
  simp only [atTableB, Bool.or_eq_true, Bool.and_eq_true, decide_eq_true_eq] at h
  rcases h with h | ⟨h, ho⟩
  · exact .harmless e (harmlessB_ok h)
  · obtain ⟨n, hn⟩ := Option.isSome_iff_exists.1 ho
    exact .start e h n (get_of_lookup' (natOf_ok hn))

def asideB (n : Nat) (e : Event) : Bool := atTableB e || (decide (e.tag = "REACH".toList) &&
  (match whoOf e with | some p => decide (0 ≤ p ∧ p < n) | none => false) && (e.attrib.lookup "step".toList).isSome)

theorem asideB_ok {n : Nat} {e : Event} (h : asideB n e = true) : Aside n e := by
  simp only [asideB, Bool.or_eq_true, Bool.and_eq_true, decide_eq_true_eq] at h
  rcases h with h | ⟨⟨h, hw⟩, hs⟩
  · exact .atTable e (atTableB_ok h)
  · obtain ⟨s, hs⟩ := Option.isSome_iff_exists.1 hs
    split at hw
    · rename_i p hp
      have hd := of_decide_eq_true hw
      exact .riichi e h p.toNat (by omega) (whoOf_ok hp hd.1) s (get_of_lookup' hs)
    · cases hw

def tilesOf (e : Event) (k : String) : Option (List Int) :=
  match intsOf e k with
  | some l => if l ≠ [] ∧ tilesB l = true then some l else none
  | none => none

theorem tilesOf_ok {e : Event} {k : String} {l : List Int} (h : tilesOf e k = some l) :
    ∃ s, e.get k.toList = .ok s ∧ ListsTiles l s := by
  unfold tilesOf at h
  split at h
  · rename_i l' hl
    split at h
    · rename_i hc
      rw [Option.some.injEq] at h
      subst h
      exact ⟨_, get_of_lookup' (intsOf_ok hl), hc.1, tilesB_ok hc.2, rfl⟩
    · cases h
  · cases h

def yakuB (l : List Int) : Bool := !l.isEmpty && l.all (fun y => decide (0 ≤ y ∧ y < 55))

def winB (n : Nat) (e : Event) : Bool :=
  match natOf e "who", natOf e "fromWho", e.attrib.lookup "sc".toList, tilesOf e "hai" with
  | some who, some giver, some sc, some hai =>
    decide (who < n) && numbersB (2 * n) sc &&
    (decide (who = giver) || (match tilesOf e "machi" with | some (t :: _) => hai.contains t | _ => false)) &&
    (match intsOf e "yaku" with
     | some l => yakuB l
     | none => decide (e.attrib.lookup "yaku".toList = none) && (match intsOf e "yakuman" with | some l => yakuB l | none => false)) &&
    ifGiven e "owari" (numbersB (2 * n))
  | _, _, _, _ => false

theorem winB_ok {n : Nat} {e : Event} (ht : e.tag = "AGARI".toList) (h : winB n e = true) : Ends n e := by
  unfold winB at h
  split at h
  · rename_i who giver sc hai h1 h2 h3 h4
    simp only [Bool.and_eq_true, decide_eq_true_eq, Bool.or_eq_true] at h
    obtain ⟨⟨⟨⟨hw, hsc⟩, hm⟩, hy⟩, ho⟩ := h
    obtain ⟨s, hs1, hs2⟩ := tilesOf_ok h4
    have hyaku : ∃ l : List Int, l ≠ [] ∧ (∀ y ∈ l, 0 ≤ y ∧ y < 55) ∧ (e.attrib.lookup "yaku".toList = some (commaList l) ∨
        e.attrib.lookup "yaku".toList = none ∧ e.attrib.lookup "yakuman".toList = some (commaList l)) := by
      split at hy
      · rename_i l hl
        simp only [yakuB, Bool.and_eq_true, Bool.not_eq_true', List.isEmpty_eq_false_iff, List.all_eq_true, decide_eq_true_eq] at hy
        exact ⟨l, hy.1, hy.2, .inl (intsOf_ok hl)⟩
      · simp only [Bool.and_eq_true, decide_eq_true_eq] at hy
        obtain ⟨hn, hy⟩ := hy
        split at hy
        · rename_i l hl
          simp only [yakuB, Bool.and_eq_true, Bool.not_eq_true', List.isEmpty_eq_false_iff, List.all_eq_true, decide_eq_true_eq] at hy
          exact ⟨l, hy.1, hy.2, .inr ⟨hn, intsOf_ok hl⟩⟩
        · cases hy
    obtain ⟨l, y1, y2, y3⟩ := hyaku
    refine .win e ht who giver hw (get_of_lookup' (natOf_ok h1)) (get_of_lookup' (natOf_ok h2)) sc (get_of_lookup' h3) (numbersB_ok hsc)
      hai s hs1 hs2 ?_ l y1 y2 y3 (fun s hs => numbersB_ok (ifGiven_ok ho s hs))
    intro hne
    rcases hm with hm | hm
    · exact absurd hm hne
    · split at hm
      · rename_i t ts hts
        obtain ⟨s', q1, q2⟩ := tilesOf_ok hts
        exact ⟨t, ts, s', q1, q2, by simpa using hm⟩
      · cases hm
  · cases h

def drawnB (n : Nat) (e : Event) : Bool :=
  ifGiven e "type" (fun s => drawnReasons.any (fun r => decide (s = r.1.toList))) && ifGiven e "sc" (numbersB (2 * n)) &&
    ifGiven e "owari" (numbersB (2 * n))

theorem drawnB_ok {n : Nat} {e : Event} (ht : e.tag = "RYUUKYOKU".toList) (h : drawnB n e = true) : Ends n e := by
  simp only [drawnB, Bool.and_eq_true] at h
  refine .drawn e ht ?_ (fun s hs => numbersB_ok (ifGiven_ok h.1.2 s hs)) (fun s hs => numbersB_ok (ifGiven_ok h.2 s hs))
  intro s hs
  have := ifGiven_ok h.1.1 s hs
  simp only [List.any_eq_true, decide_eq_true_eq] at this
  exact this

def endsB (n : Nat) (e : Event) : Bool :=
  (decide (e.tag = "AGARI".toList) && winB n e) || (decide (e.tag = "RYUUKYOKU".toList) && drawnB n e)

theorem endsB_ok {n : Nat} {e : Event} (h : endsB n e = true) : Ends n e := by
  simp only [endsB, Bool.or_eq_true, Bool.and_eq_true, decide_eq_true_eq] at h
  rcases h with h | h
  · exact winB_ok h.1 h.2
  · exact drawnB_ok h.1 h.2

/-! ### Moves -/

def moveAmongB (n : Nat) : Move → Bool
  | .deal .. => false
  | .draw q t => decide (q.val < n ∧ t < 136)
  | .discard q t => decide (q.val < n ∧ t < 136)
  | .meld q c => decide (q.val < n) && (match meldOf q.val c with
    | .ok m => tilesB m.selfTiles && tilesB m.borrowedTiles
    | .error _ => false)
  | .dora t => decide (t < 136)
  | .other e => quietB e && asideB n e

theorem moveAmongB_ok {n : Nat} {m : Move} (h : moveAmongB n m = true) : MoveAmong n m := by
  cases m with
  | deal s hh mo => cases h
  | draw q t => rw [moveAmongB, decide_eq_true_eq] at h; exact h
  | discard q t => rw [moveAmongB, decide_eq_true_eq] at h; exact h
  | meld q c =>
    simp only [moveAmongB, Bool.and_eq_true, decide_eq_true_eq] at h
    refine ⟨h.1, ?_⟩
    have h2 := h.2
    split at h2
    · rename_i m hm
      simp only [Bool.and_eq_true] at h2
      exact ⟨m, hm, tilesB_ok h2.1, tilesB_ok h2.2⟩
    · cases h2
  | dora t => rw [moveAmongB, decide_eq_true_eq] at h; exact h
  | other e =>
    simp only [moveAmongB, Bool.and_eq_true] at h
    exact ⟨quietB_ok h.1, asideB_ok h.2⟩

/-- the number after the letter of a tag -/
def tagNumber (tag : Str) : Nat := (digitsVal 0 (tag.drop 1)).toNat

/-- a guess which move an element is -/
def guess (e : Event) : Move :=
  if numberedTag e.tag then
    match "TUVW".toList.idxOf? (e.tag.headD ' ') with
    | some q => .draw (Fin.ofNat 4 q) (tagNumber e.tag)
    | none => .discard (Fin.ofNat 4 (("DEFG".toList.idxOf? (e.tag.headD ' ')).getD 0)) (tagNumber e.tag)
  else if e.tag = "N".toList then .meld (Fin.ofNat 4 ((natOf e "who").getD 0)) ((natOf e "m").getD 0)
  else if e.tag = "DORA".toList then .dora ((natOf e "hai").getD 0)
  else .other e

/-- the move an element is read as -/
def moveFrom (e : Event) : Move := if (guess e).event = e then guess e else .other e

theorem moveFrom_event (e : Event) : (moveFrom e).event = e := by
  unfold moveFrom
  split
  · assumption
  · rfl

theorem map_moveFrom (es : List Event) : (es.map moveFrom).map Move.event = es := by
  induction es with
  | nil => rfl
  | cons e es ih => rw [List.map_cons, List.map_cons, moveFrom_event, ih]

/-! ### Rounds -/

def handOf (e : Event) (p : Fin 4) : List Int := (intsOf e ["hai0", "hai1", "hai2", "hai3"][p]).getD []

/-- the deal an element is read as: all its attributes keep their places -/
def playFrom : List Event → Option Play
  | [] => none
  | d :: r => match intsOf d "seed" with
    | some seed => if (Move.deal seed (handOf d) d.attrib).event = d then some ⟨seed, handOf d, d.attrib, r.map moveFrom⟩ else none
    | none => none

theorem playFrom_events {es : List Event} {g : Play} (h : playFrom es = some g) : g.events = es := by
  unfold playFrom at h
  split at h
  · cases h
  · split at h
    · split at h
      · rename_i he
        rw [Option.some.injEq] at h
        rw [← h]
        simp only [Play.events, Play.deal, List.map_cons, he, map_moveFrom]
      · cases h
    · cases h

def ending (m : Move) : Bool := decide (m.event.tag = "AGARI".toList ∨ m.event.tag = "RYUUKYOKU".toList)

def seats : List (Fin 4) := [0, 1, 2, 3]

def roundB (n winds : Nat) (g : Play) : Bool :=
  (match g.seed with
   | number :: rest => decide (0 ≤ number ∧ number < 4 * (winds + 1)) && decide (3 ≤ rest.length) && tilesB [rest.getLastD 0]
   | [] => false) &&
  (match g.more.lookup "oya".toList with
   | some s => (match pyInt s with | .ok k => decide (natDigits k.toNat = s) | .error _ => false)
   | none => false) &&
  (match g.more.lookup "ten".toList with | some s => numbersB n s | none => false) &&
  seats.all (fun p => decide (n ≤ p.val) || (!(g.hands p).isEmpty && decide ((g.hands p).Nodup) && tilesB (g.hands p) &&
    checkConsistent p [] (g.deal :: g.moves.takeWhile (fun m => !ending m)))) &&
  (g.moves.takeWhile (fun m => !ending m)).all (moveAmongB n) &&
  (g.moves.dropWhile (fun m => !ending m)).all (fun m => endsB n m.event || asideB n m.event)

theorem mem_seats (p : Fin 4) : p ∈ seats := by
  match p with
  | 0 => decide
  | 1 => decide
  | 2 => decide
  | 3 => decide

theorem roundB_ok {n winds : Nat} {g : Play} (h : roundB n winds g = true) : Round n winds g.events := by
  simp only [roundB, Bool.and_eq_true] at h
  obtain ⟨⟨⟨⟨⟨h1, h2⟩, h3⟩, h4⟩, h5⟩, h6⟩ := h
  split at h1
  · rename_i number rest hseed
    simp only [Bool.and_eq_true, decide_eq_true_eq] at h1
    obtain ⟨⟨hn, hlen⟩, hind⟩ := h1
    split at h2
    · rename_i so hso
      split at h2
      · rename_i k hk
        have hoya := of_decide_eq_true h2
        split at h3
        · rename_i st hst
          obtain ⟨others, ind, hrest⟩ : ∃ others ind, rest = others ++ [ind] := by
            rcases List.eq_nil_or_concat rest with rfl | ⟨a, b, rfl⟩
            · simp at hlen
            · exact ⟨a, b, by simp⟩
          have hi : IsTile ind := by
            refine tilesB_ok hind ind ?_
            rw [hrest]
            simp
          have hsplit : g.moves = g.moves.takeWhile (fun m => !ending m) ++ g.moves.dropWhile (fun m => !ending m) :=
            (List.takeWhile_append_dropWhile).symm
          have hev : g.events = (Move.deal g.seed g.hands g.more :: g.moves.takeWhile (fun m => !ending m)).map Move.event ++
              (g.moves.dropWhile (fun m => !ending m)).map Move.event := by
            unfold Play.events Play.deal
            rw [← List.map_append, List.cons_append, ← hsplit]
          rw [hev]
          refine .mk g.seed g.hands g.more _ _ number.toNat others ind ?_ ?_ ?_ hi k.toNat ?_ st hst (numbersB_ok h3) ?_ ?_ ?_
          · rw [hseed, hrest, Int.toNat_of_nonneg hn.1]; simp
          · rw [hrest] at hlen; simp at hlen; omega
          · omega
          · rw [hoya, hso]
          · intro p hp
            have := List.all_eq_true.1 h4 p (mem_seats p)
            simp only [Bool.or_eq_true, decide_eq_true_eq, Bool.and_eq_true, Bool.not_eq_true', List.isEmpty_eq_false_iff] at this
            rcases this with h' | ⟨⟨⟨q1, q2⟩, q3⟩, q4⟩
            · omega
            · exact ⟨q1, q2, tilesB_ok q3, consistent_of_check p _ q4⟩
          · intro m hm
            exact moveAmongB_ok (List.all_eq_true.1 h5 m hm)
          · intro e he
            obtain ⟨m, hm, rfl⟩ := List.mem_map.1 he
            have := List.all_eq_true.1 h6 m hm
            simp only [Bool.or_eq_true] at this
            rcases this with h' | h'
            · exact .inl (endsB_ok h')
            · exact .inr (asideB_ok h')
        · cases h3
      · cases h2
    · cases h2
  · cases h1

/-! ### Records -/

/-- the elements before the first deal, and the rounds -/
def cutRounds : List Event → List Event × List (List Event)
  | [] => ([], [])
  | e :: es => if e.tag = "INIT".toList then ([], (e :: (cutRounds es).1) :: (cutRounds es).2) else (e :: (cutRounds es).1, (cutRounds es).2)

theorem cutRounds_all (es : List Event) : (cutRounds es).1 ++ (cutRounds es).2.flatten = es := by
  induction es with
  | nil => rfl
  | cons e es ih =>
    unfold cutRounds
    split
    · simp only [List.flatten_cons, List.nil_append, List.cons_append, ih]
    · simp only [List.cons_append, ih]

/-- the parts of a record: what stands before `GO`, `GO`, what stands before the first deal, and the rounds -/
structure Pieces where
  before : List Event
  go : Event
  header : List Event
  plays : List Play
  v : Nat

def piecesOf (es : List Event) : Option Pieces :=
  match es.dropWhile (fun e => decide (e.tag ≠ "GO".toList)) with
  | [] => none
  | go :: rest =>
    match (cutRounds rest).2.mapM playFrom, natOf go "type" with
    | some plays, some v => some ⟨es.takeWhile (fun e => decide (e.tag ≠ "GO".toList)), go, (cutRounds rest).1, plays, v⟩
    | _, _ => none

theorem mapM_playFrom {rs : List (List Event)} : ∀ {ps : List Play}, rs.mapM playFrom = some ps → ps.map Play.events = rs := by
  induction rs with
  | nil => intro ps h; simp only [List.mapM_nil, Option.pure_def, Option.some.injEq] at h; rw [← h]; rfl
  | cons r rs ih =>
    intro ps h
    simp only [List.mapM_cons, Option.pure_def, Option.bind_eq_bind, Option.bind_eq_some_iff, Option.some.injEq] at h
    obtain ⟨g, hg, gs, hgs, rfl⟩ := h
    rw [List.map_cons, playFrom_events hg, ih hgs]

theorem piecesOf_ok {es : List Event} {q : Pieces} (h : piecesOf es = some q) :
    es = q.before ++ q.go :: q.header ++ (q.plays.map Play.events).flatten ∧ natOf q.go "type" = some q.v ∧ q.go.tag = "GO".toList := by
  unfold piecesOf at h
  split at h
  · cases h
  · rename_i go rest hd
    split at h
    · rename_i plays v hp hv
      rw [Option.some.injEq] at h
      subst h
      refine ⟨?_, hv, ?_⟩
      · dsimp only
        rw [mapM_playFrom hp]
        have := (List.takeWhile_append_dropWhile (p := fun e : Event => decide (e.tag ≠ "GO".toList)) (l := es)).symm
        rw [hd] at this
        conv => lhs; rw [this]
        conv => lhs; rw [← cutRounds_all rest]
        simp
      · have := List.head?_dropWhile_not (fun e : Event => decide (e.tag ≠ "GO".toList)) es
        rw [hd] at this
        simpa using this
    · cases h

def namesB (es : List Event) : Bool :=
  match es.dropWhile (fun e => decide (e.tag ≠ "UN".toList)) with
  | [] => false
  | un :: _ => ["n0", "n1", "n2", "n3", "sx", "dan", "rate"].all (fun k => (un.attrib.lookup k.toList).isSome)

/-- the record is complete -/
def completeB (es : List Event) : Bool :=
  match piecesOf es with
  | none => false
  | some q => es.all seatedB && q.before.all harmlessB && decide (q.v ≤ 65535) && q.header.all atTableB &&
    q.plays.all (roundB (playersOf q.v) (windsOf q.v)) && namesB (q.before ++ q.header) &&
    q.plays.all (fun g => g.moves.any ending) &&
    (match es.getLast? with | some e => (match e.attrib.lookup "owari".toList with | some s => numbersB 1 s | none => false) | none => false)

theorem completeB_ok {es : List Event} (h : completeB es = true) :
    ∃ q, piecesOf es = some q ∧ CompleteAs es q.before q.go q.header (q.plays.map Play.events) q.v := by
  unfold completeB at h
  split at h
  · cases h
  · rename_i q hq
    simp only [Bool.and_eq_true, decide_eq_true_eq, List.all_eq_true] at h
    obtain ⟨⟨⟨⟨⟨⟨⟨h1, h2⟩, h3⟩, h4⟩, h5⟩, h6⟩, h7⟩, h8⟩ := h
    obtain ⟨p1, p2, p3⟩ := piecesOf_ok hq
    refine ⟨q, hq, ⟨p1, fun e he => seated_of_B (h1 e he), fun e he => harmlessB_ok (h2 e he),
      ⟨p3, h3, get_of_lookup' (natOf_ok p2)⟩, fun e he => atTableB_ok (h4 e he), ?_⟩, ?_, ?_, ?_⟩
    · intro r hr
      obtain ⟨g, hg, rfl⟩ := List.mem_map.1 hr
      exact roundB_ok (h5 g hg)
    · unfold namesB at h6
      split at h6
      · cases h6
      · rename_i un rest hd
        refine ⟨(q.before ++ q.header).takeWhile (fun e => decide (e.tag ≠ "UN".toList)), un, rest, ?_, ?_, ?_, ?_, ?_⟩
        · rw [← hd]; exact (List.takeWhile_append_dropWhile).symm
        · intro e he
          have := List.all_takeWhile (p := fun e : Event => decide (e.tag ≠ "UN".toList)) (l := q.before ++ q.header)
          have := List.all_eq_true.1 this e he
          exact of_decide_eq_true this
        · have := List.head?_dropWhile_not (fun e : Event => decide (e.tag ≠ "UN".toList)) (q.before ++ q.header)
          rw [hd] at this
          simpa using this
        · intro k hk
          exact Option.isSome_iff_exists.1 (List.all_eq_true.1 h6 k (by
            simp only [List.mem_cons, List.not_mem_nil, or_false] at hk ⊢; tauto))
        · intro k hk
          exact Option.isSome_iff_exists.1 (List.all_eq_true.1 h6 k (by
            simp only [List.mem_cons, List.not_mem_nil, or_false] at hk ⊢; tauto))
    · intro r hr
      obtain ⟨g, hg, rfl⟩ := List.mem_map.1 hr
      obtain ⟨m, hm, hend⟩ := List.any_eq_true.1 (h7 g hg)
      exact ⟨m.event, List.mem_map_of_mem (List.mem_cons_of_mem _ hm), of_decide_eq_true hend⟩
    · split at h8
      · rename_i e he
        split at h8
        · rename_i s hs
          obtain ⟨front, hf⟩ := List.getLast?_eq_some_iff.1 he
          exact ⟨front, e, s, hf, hs, numbersB_ok h8⟩
        · cases h8
      · cases h8

/-! ### Players who keep to the rules -/

def legalB : Move → Bool
  | .deal seed _ _ => !seed.isEmpty
  | .meld q c => (meldOf q.val c).toOption.isSome
  | .other e => quietB e
  | _ => true

theorem legalB_ok {m : Move} (h : legalB m = true) : LegalMove m := by
  cases m with
  | deal s hh mo => simp only [legalB, Bool.not_eq_true', List.isEmpty_eq_false_iff] at h; exact h
  | draw q t => trivial
  | discard q t => trivial
  | meld q c =>
    rw [legalB] at h
    cases hm : meldOf q.val c with
    | ok m => exact ⟨m, hm⟩
    | error x => rw [hm] at h; cases h
  | dora t => trivial
  | other e => exact quietB_ok h

def turnB (p : Fin 4) (n : Int) : Move → Bool
  | .discard q _ => decide (q ≠ p) || decide (n = 1)
  | _ => true

def turnsB (p : Fin 4) : Int → List Move → Bool
  | _, [] => true
  | n, m :: ms => turnB p n m && turnsB p (n + extra p m) ms

theorem turnsB_ok {p : Fin 4} : ∀ {ms : List Move} {n : Int}, turnsB p n ms = true →
    ∀ pre t post, ms = pre ++ .discard p t :: post → n + (pre.map (extra p)).sum = 1 := by
  intro ms
  induction ms with
  | nil => intro n _ pre t post he; simp at he
  | cons m ms ih =>
    intro n h pre t post he
    rw [turnsB, Bool.and_eq_true] at h
    cases pre with
    | nil =>
      simp only [List.nil_append, List.cons.injEq] at he
      obtain ⟨rfl, rfl⟩ := he
      have := h.1
      simp [turnB] at this ⊢
      exact this
    | cons x pre =>
      simp only [List.cons_append, List.cons.injEq] at he
      obtain ⟨rfl, rfl⟩ := he
      have := ih h.2 pre t post rfl
      rw [List.map_cons, List.sum_cons]
      omega

def drawnTilesB (p : Fin 4) : Move → Bool
  | .draw q n => decide (q ≠ p) || decide (n < 136)
  | _ => true

def fairB (p : Fin 4) (g : Play) : Bool :=
  (g.deal :: g.moves).all legalB && g.moves.all (fun m => !m.isDeal) && decide ((g.hands p).Nodup) && decide ((g.hands p).length = 13) &&
    tilesB (g.hands p) && g.moves.all (drawnTilesB p) && checkConsistent p [] (g.deal :: g.moves) && turnsB p 0 g.moves

theorem fairB_ok {p : Fin 4} {g : Play} (h : fairB p g = true) : g.Fair p := by
  simp only [fairB, Bool.and_eq_true, decide_eq_true_eq] at h
  obtain ⟨⟨⟨⟨⟨⟨⟨h1, h2⟩, h3⟩, h4⟩, h5⟩, h6⟩, h7⟩, h8⟩ := h
  refine ⟨fun m hm => legalB_ok (List.all_eq_true.1 h1 m hm), ?_, ⟨h3, h4, ?_⟩, ?_, consistent_of_check p _ h7, ?_⟩
  · intro m hm
    simpa using List.all_eq_true.1 h2 m hm
  · intro n hn
    exact tilesB_ok h5 n hn
  · intro n hn
    have := List.all_eq_true.1 h6 _ hn
    simpa [drawnTilesB] using this
  · intro pre t post he
    have := turnsB_ok h8 pre t post he
    omega

def winShownB (n : Nat) (e : Event) : Bool :=
  !decide (e.tag = "AGARI".toList) || (match natOf e "fromWho", intsOf e "ten" with
    | some k, some l => decide (k < n) && decide (2 ≤ l.length)
    | _, _ => false)

theorem winShownB_ok {n : Nat} {e : Event} (h : winShownB n e = true) : WinShown n e := by
  intro ht
  simp only [winShownB, Bool.or_eq_true, Bool.not_eq_true', decide_eq_false_iff_not] at h
  rcases h with h | h
  · exact absurd ht h
  · split at h
    · rename_i k l hk hl
      simp only [Bool.and_eq_true, decide_eq_true_eq] at h
      exact ⟨k, h.1, get_of_lookup' (natOf_ok hk), l, h.2, get_of_lookup' (intsOf_ok hl)⟩
    · cases h

/-- every player keeps to the rules in every round, and the wins can be shown -/
def fairRecordB (es : List Event) : Bool :=
  match piecesOf es with
  | none => false
  | some q => q.plays.all (fun g => g.events.all (winShownB (playersOf q.v)) &&
      seats.all (fun p => decide (playersOf q.v ≤ p.val) || fairB p g))

theorem fairRecordB_ok {es : List Event} {q : Pieces} (hq : piecesOf es = some q) (h : fairRecordB es = true) :
    (∀ g ∈ q.plays, ∀ e ∈ g.events, WinShown (playersOf q.v) e) ∧
    ∀ p : Fin 4, p.val < playersOf q.v → ∀ g ∈ q.plays, g.Fair p := by
  rw [fairRecordB, hq] at h
  simp only [List.all_eq_true, Bool.and_eq_true, Bool.or_eq_true, decide_eq_true_eq] at h
  refine ⟨fun g hg e he => winShownB_ok ((h g hg).1 e he), fun p hp g hg => ?_⟩
  rcases (h g hg).2 p (mem_seats p) with h' | h'
  · omega
  · exact fairB_ok h'

end Verif.Proofs
