import Verif.Proofs.HeapState
import Verif.Props.State
import Verif.Props.Command

/-! Property C101: what was handed out earlier never changes. -/
namespace Verif.Props
open Verif.Model Verif.Spec Verif.Py Verif.Proofs.Heap

/-- **C101**, interpreter: when all commands are interpreted, every value an earlier command was given (`command.state`) and every
    earlier content of the interpreter is still what the run on values says it was, and everything that held a value before the run, as
    the values of the commands, holds it still.  The same exception ends both runs. -/
theorem C101_values (h : Heap) (hb : Built h) (as : List HCmd) (cs : List Cmd) (hc : List.Forall₂ (SameCmd h) as cs) (s : HState)
    (t : IState) (hs : HoldState h s t) :
    List.Forall₂ (fun a b => Holds (hRun h s as).1 a.1 b.1 ∧ HoldState (hRun h s as).1 a.2 b.2) (hRun h s as).2.1 (valueRun t cs).1 ∧
    (hRun h s as).2.2 = (valueRun t cs).2 ∧
    (∀ x v, Holds h x v → Holds (hRun h s as).1 x v) :=
  have r := run_holds hb hc hs
  ⟨r.2.2.1, r.2.2.2, fun _ _ => holds_mono r.1⟩

theorem later_values (bs : List HCmd) {as : List HCmd} : ∀ {h : Heap} {s : HState} {t : IState} {cs ds : List Cmd}, Built h →
    List.Forall₂ (SameCmd h) as cs → List.Forall₂ (SameCmd h) bs ds → HoldState h s t →
    (hRun h s as).2.1 <+: (hRun h s (as ++ bs)).2.1 ∧ Extends (hRun h s as).1 (hRun h s (as ++ bs)).1 := by
  induction as with
  | nil => intro h s t cs ds hb _ hd hs; exact ⟨List.nil_prefix, (run_holds hb hd hs).1⟩
  | cons a as ih =>
    intro h s t cs ds hb hc hd hs
    cases hc with
    | cons p q =>
      rename_i c cs
      have key := good_newValue hb p (get_holds hs (c.sub, c.prop))
      have ke : (a.sub, a.prop) = (c.sub, c.prop) := by rw [p.1, p.2.2.1]
      rw [List.cons_append, hRun, hRun, ke]
      cases e1 : h.newValue a (s.get (c.sub, c.prop)) with
      | error x => exact ⟨List.nil_prefix, Extends.refl h⟩
      | ok kx =>
        obtain ⟨k, x⟩ := kx
        cases e2 : newValue c (t.get (c.sub, c.prop)) with
        | error y => rw [e1, e2] at key; exact key.elim
        | ok v =>
          rw [e1, e2] at key
          obtain ⟨bk, ek, hv⟩ := key
          have r := ih bk (forall_mono (fun _ _ => sameCmd_mono ek) q) (forall_mono (fun _ _ => sameCmd_mono ek) hd)
            (put_holds (holdState_mono ek hs) (c.sub, c.prop) hv)
          exact ⟨List.cons_prefix_cons.mpr ⟨rfl, r.1⟩, r.2⟩

/-- **C101**, interpreter: whatever further commands come, what was handed out so far is the same objects and they hold the same values. -/
theorem C101_later (h : Heap) (hb : Built h) (as bs : List HCmd) (cs ds : List Cmd) (hc : List.Forall₂ (SameCmd h) as cs)
    (hd : List.Forall₂ (SameCmd h) bs ds) (s : HState) (t : IState) (hs : HoldState h s t) :
    (hRun h s as).2.1 <+: (hRun h s (as ++ bs)).2.1 ∧
    ∀ x v, Holds (hRun h s as).1 x v → Holds (hRun h s (as ++ bs)).1 x v :=
  have r := later_values bs hb hc hd hs
  ⟨r.1, fun _ _ => holds_mono r.2⟩

/-- **C101**, executor: the states `execute` yielded are, when the run is over, what the run on values yields. -/
theorem C101_states (strict : Bool) (h : Heap) (hb : Built h) (as : List HCmd) (cs : List Cmd) (hc : List.Forall₂ (SameCmd h) as cs) :
    List.Forall₂ (HoldTD (hExecute strict h hInitialTree as).1) (hExecute strict h hInitialTree as).2.1 (execute strict cs).1 ∧
    (hExecute strict h hInitialTree as).2.2 = (execute strict cs).2 ∧
    (∀ x v, Holds h x v → Holds (hExecute strict h hInitialTree as).1 x v) :=
  have r := execute_holds strict hb hc (initial_holds h)
  ⟨r.2.2.1, r.2.2.2, fun _ _ => holds_mono r.1⟩

/-- what one variable holds is one value -/
theorem C101_one (h : Heap) (hb : Built h) (x : HVal) (v w : Val) (a : Holds h x v) (b : Holds h x w) : v = w :=
  (read_full hb a).symm.trans (read_full hb b)

/-- **C101**, states of a game: the states `with_events` yielded show, when the events are over, what the run on values gives; the
    sets and lists there were before are as they were. -/
theorem C101_game (b : Boxes) (x : OState) (s : GState) (h : Shown b x s) (es : List Event) :
    List.Forall₂ (Shown (oWithEvents b x es).1) (oWithEvents b x es).2.1 (stateRun s es).1 ∧
    (oWithEvents b x es).2.2 = (stateRun s es).2 ∧
    (∀ (r : Nat) c, b[r]? = some c → (oWithEvents b x es).1[r]? = some c) :=
  have r := withEvents_shown (es := es) h
  ⟨r.2.1, r.2.2, r.1⟩

/-- **C101**, states of a game: whatever further events come, the states yielded so far are the same objects and show the same. -/
theorem C101_game_later (b : Boxes) (x : OState) (s : GState) (h : Shown b x s) (es fs : List Event) :
    (oWithEvents b x es).2.1 <+: (oWithEvents b x (es ++ fs)).2.1 ∧
    ∀ y u, Shown (oWithEvents b x es).1 y u → Shown (oWithEvents b x (es ++ fs)).1 y u := by
  suffices H : (oWithEvents b x es).2.1 <+: (oWithEvents b x (es ++ fs)).2.1 ∧ Kept (oWithEvents b x es).1 (oWithEvents b x (es ++ fs)).1 from
    ⟨H.1, fun _ _ => shown_kept H.2⟩
  induction es generalizing b x s with
  | nil => exact ⟨List.nil_prefix, (withEvents_shown h).1⟩
  | cons e es ih =>
    have key := scan_shown e h
    rw [List.cons_append, oWithEvents, oWithEvents]
    cases e1 : oScan b e x with
    | error y => exact ⟨List.nil_prefix, Kept.refl b⟩
    | ok ky =>
      cases e2 : s.scan e with
      | error z => rw [e1, e2] at key; exact key.elim
      | ok z =>
        rw [e1, e2] at key
        have r := ih _ _ _ key.2
        exact ⟨List.cons_prefix_cons.mpr ⟨rfl, r.1⟩, r.2⟩

mutual
theorem shown_one {b : Boxes} : ∀ {x s t}, Shown b x s → Shown b x t → s = t
  | _, _, _, .hand a, .hand c => by rw [a] at c; cases c; rfl
  | _, _, _, .melds a, .melds c => by rw [a] at c; cases c; rfl
  | _, _, _, .discards a, .discards c => by rw [a] at c; cases c; rfl
  | _, _, _, .dora a, .dora c => by rw [a] at c; cases c; rfl
  | _, _, _, .invisible a, .invisible c => by rw [a] at c; cases c; rfl
  | _, _, _, .coll a, .coll c => by rw [shownAll_one a c]
theorem shownAll_one {b : Boxes} : ∀ {x s t}, ShownAll b x s → ShownAll b x t → s = t
  | _, _, _, .nil, .nil => rfl
  | _, _, _, .cons a p, .cons c q => by rw [shown_one a c, shownAll_one p q]
end

/-- what one state shows is one value -/
theorem C101_game_one (b : Boxes) (x : OState) (s t : GState) (a : Shown b x s) (c : Shown b x t) : s = t := shown_one a c

/-- two lists of tiles: the first becomes the hand of both players (one object), then player 0 discards and player 1 draws -/
def sharedHeap : Heap := [[.atom (.str "1m".toList), .atom (.str "2m".toList)], [.atom (.str "1m".toList)]]

def sharedCmds : List HCmd :=
  [⟨view .player "hand", .replace, .num 0, .ref 0, none⟩, ⟨view .player "hand", .replace, .num 1, .ref 0, none⟩,
   ⟨view .player "hand", .remove, .num 0, .ref 1, none⟩, ⟨view .player "hand", .add, .num 1, .ref 1, none⟩]

def one : Val := .str "1m".toList
def two : Val := .str "2m".toList

def sharedValues : List Cmd :=
  [{ prop := view .player "hand", update := .replace, sub := .num 0, value := .list [one, two] },
   { prop := view .player "hand", update := .replace, sub := .num 1, value := .list [one, two] },
   { prop := view .player "hand", update := .remove, sub := .num 0, value := .list [one] },
   { prop := view .player "hand", update := .add, sub := .num 1, value := .list [one] }]

theorem shared_built : Built sharedHeap := by
  intro r items e s m
  match r with
  | 0 => cases e; simp at m
  | 1 => cases e; simp at m
  | n + 2 => cases e

theorem shared_same : List.Forall₂ (SameCmd sharedHeap) sharedCmds sharedValues := by
  have a : ∀ s, Holds sharedHeap (.atom (.str s)) (.str s) := fun s => .atom (fun l e => by cases e)
  have r0 : Holds sharedHeap (.ref 0) (.list [one, two]) := .ref rfl (.cons (a _) (.cons (a _) .nil))
  have r1 : Holds sharedHeap (.ref 1) (.list [one]) := .ref rfl (.cons (a _) .nil)
  exact .cons ⟨rfl, rfl, rfl, rfl, r0⟩ (.cons ⟨rfl, rfl, rfl, rfl, r0⟩ (.cons ⟨rfl, rfl, rfl, rfl, r1⟩ (.cons ⟨rfl, rfl, rfl, rfl, r1⟩ .nil)))

/-- the two hands are one object until the third command; the object is as it was in the end -/
example : (hRun sharedHeap [] sharedCmds).2.1.map (fun e => e.1) = [.ref 0, .ref 0, .ref 2, .ref 3] ∧
    (hRun sharedHeap [] sharedCmds).2.2 = none ∧
    (hRun sharedHeap [] sharedCmds).1 = sharedHeap ++ [[.atom two], [.atom one, .atom two, .atom one]] ∧
    (valueRun [] sharedValues).1.map (fun e => e.1) = [.list [one, two], .list [one, two], .list [two], .list [one, two, one]] := by
  decide +kernel

example : (hExecute true sharedHeap hInitialTree sharedCmds).2.1.length = 4 := by decide +kernel

/-- a collection of states, where the hand of player 1 is the same object as long as nothing concerns it -/
example : Shown [.ints [7], .ints [], .elems []] (.coll ["h".toList, "i".toList] [.hand 0 0, .coll ["d".toList] [.discards 0 1, .invisible true 2]])
      (.coll ["h".toList, "i".toList] [.hand 0 [7], .coll ["d".toList] [.discards 0 [], .invisible true []]]) ∧
    (stateRun (.coll ["h".toList, "i".toList] [.hand 0 [7], .coll ["d".toList] [.discards 0 [], .invisible true []]])
      (sampleMoves.map Move.event)).1.length = sampleMoves.length :=
  ⟨.coll (.cons (.hand rfl) (.cons (.coll (.cons (.discards rfl) (.cons (.invisible rfl) .nil))) .nil)), by decide +kernel⟩

end Verif.Props
