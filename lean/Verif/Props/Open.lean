import Verif.Proofs.TranslateOpen
import Verif.Props.Translate

/-!
C90: the tiles laid open and the norths put aside in the converted state, and where every tile of a player is.
-/
namespace Verif.Props
open Verif.Py Verif.Model Verif.Spec Verif.Proofs

/-- **C90.** After a deal and any moves, `meld_public_tiles` of a player are the names of the tiles they laid down from
    their own hand since the deal, in order, and `bonus_tiles` those of their norths. -/
theorem C90_open (strict : Bool) (ctx ctx' : Ctx) (n : Nat) (hn : ctx.playerCount = .ok n) (p : Fin 4) (hp : p.val < n)
    (seed : List Int) (hands : Fin 4 → List Int) (more : List (Str × Str)) (ms : List Move) (hok : PlayOk ms)
    (ts : List TEvent) (hts : Records ts (.deal seed hands more :: ms)) (out : List Cmd)
    (h : translateAll strict ctx ts = .ok (ctx', out)) :
    ctx'.vals.get (ofPlayer p.val "meld_public_tiles") = strs ((laidOf p ms).map tileName) ∧
    ctx'.vals.get (ofPlayer p.val "bonus_tiles") = strs ((northsOf p ms).map tileName) :=
  (open_sim hn hp (fun m hm => (hok m hm).1) (fun m hm => (hok m hm).2.1) (fun m hm => (hok m hm).2.2) hts h).1

/-- **C90.** No tile is lost or made up: whenever the events up to some point before the end of the game convert, whether
    the moves make sense or not, the hand, the discards and the tiles laid open of a player together are the tiles dealt
    to them and drawn by them, each name equally often. -/
theorem C90_kept (strict : Bool) (ctx ctx' : Ctx) (n : Nat) (hn : ctx.playerCount = .ok n) (p : Fin 4) (hp : p.val < n)
    (seed : List Int) (hands : Fin 4 → List Int) (more : List (Str × Str)) (ms : List Move)
    (hne : hands p ≠ []) (hT : ∀ t ∈ hands p, IsTile t) (hok : PlayOk ms) (hend : NoEnd ms)
    (ts : List TEvent) (hts : Records ts (.deal seed hands more :: ms)) (out : List Cmd)
    (h : translateAll strict ctx ts = .ok (ctx', out)) :
    ∃ hand discards laid, ctx'.vals.get (ofPlayer p.val "hand") = strs hand ∧
      ctx'.vals.get (ofPlayer p.val "discard_tiles") = strs discards ∧
      ctx'.vals.get (ofPlayer p.val "meld_public_tiles") = strs laid ∧
      (hand ++ discards ++ laid).Perm ((hands p ++ drawsOf p ms).map tileName) := by
  have o := open_sim hn hp (fun m hm => (hok m hm).1) (fun m hm => (hok m hm).2.1) (fun m hm => (hok m hm).2.2) hts h
  obtain ⟨names, h1, h2⟩ := o.2 (fun e he => (hend e he).1) hne hT
  refine ⟨names, _, _, h1, (C49_discards strict ctx ctx' n hn p hp seed hands more ms hok ts hts out h).2.1, o.1.1, ?_⟩
  rw [List.append_assoc]
  exact h2

/-- **C90.** So the number of tiles in the hand is that of the tiles dealt and drawn less those discarded and laid
    open. -/
theorem C90_hand_size (strict : Bool) (ctx ctx' : Ctx) (n : Nat) (hn : ctx.playerCount = .ok n) (p : Fin 4) (hp : p.val < n)
    (seed : List Int) (hands : Fin 4 → List Int) (more : List (Str × Str)) (ms : List Move)
    (hne : hands p ≠ []) (hT : ∀ t ∈ hands p, IsTile t) (hok : PlayOk ms) (hend : NoEnd ms)
    (ts : List TEvent) (hts : Records ts (.deal seed hands more :: ms)) (out : List Cmd)
    (h : translateAll strict ctx ts = .ok (ctx', out)) :
    ∃ hand, ctx'.vals.get (ofPlayer p.val "hand") = strs hand ∧
      hand.length + (discardsOf p ms).length + (laidOf p ms).length = (hands p).length + (drawsOf p ms).length := by
  obtain ⟨hand, discards, laid, h1, h2, h3, h4⟩ :=
    C90_kept strict ctx ctx' n hn p hp seed hands more ms hne hT hok hend ts hts out h
  refine ⟨hand, h1, ?_⟩
  have hi : ∀ a b : List Str, strs a = strs b → a.length = b.length := by
    intro a b hab
    have := congrArg (fun v => match v with | .list l => l.length | _ => 0) hab
    simpa [strs] using this
  have l1 := hi _ _ (h2.symm.trans (C49_discards strict ctx ctx' n hn p hp seed hands more ms hok ts hts out h).2.1)
  have l2 := hi _ _ (h3.symm.trans (C90_open strict ctx ctx' n hn p hp seed hands more ms hok ts hts out h).1)
  have := h4.length_eq
  simp only [List.length_append, List.length_map] at this l1 l2
  omega

/-- the sample and after it player 3 drawing a north and putting it aside -/
def northPlay : List Move := samplePlay ++ [.draw 3 121, .meld 3 (kitaCode 0 121 0).toNat]

theorem northPlay_ok : PlayOk northPlay := by
  intro m hm
  rcases List.mem_append.1 hm with hm | hm
  · exact samplePlay_ok m hm
  · simp only [List.mem_cons, List.not_mem_nil, or_false] at hm
    rcases hm with rfl | rfl
    · exact ⟨trivial, rfl, by unfold MoveTiles; omega⟩
    · exact ⟨⟨_, C27_kita 3 0 121 0 (by unfold InRange; omega) (by unfold InRange; omega) (by unfold InRange; omega)⟩, rfl, trivial⟩

/-- all hypotheses hold for this play: player 1 lays down a pair for a pon and one tile more for a kan, player 3 a
    north -/
example : ∃ c o, translateAll true sampleCtx (sampleEvents (sampleDeal :: northPlay)) = .ok (c, o) ∧
    c.vals.get (ofPlayer 1 "meld_public_tiles") = strs ["6m".toList, "6m".toList, "6m".toList] ∧
    c.vals.get (ofPlayer 1 "bonus_tiles") = strs [] ∧
    c.vals.get (ofPlayer 3 "meld_public_tiles") = strs ["4z".toList] ∧
    c.vals.get (ofPlayer 3 "bonus_tiles") = strs ["4z".toList] ∧
    ∀ p : Fin 4, ∃ hand discards laid, c.vals.get (ofPlayer p.val "hand") = strs hand ∧
      c.vals.get (ofPlayer p.val "discard_tiles") = strs discards ∧
      c.vals.get (ofPlayer p.val "meld_public_tiles") = strs laid ∧
      (hand ++ discards ++ laid).Perm ((sampleHands p ++ drawsOf p northPlay).map tileName) := by
  have e : ∃ c o, translateAll true sampleCtx (sampleEvents (sampleDeal :: northPlay)) = .ok (c, o) := by
    have : (translateAll true sampleCtx (sampleEvents (sampleDeal :: northPlay))).isOk = true := by decide +kernel
    cases hx : translateAll true sampleCtx (sampleEvents (sampleDeal :: northPlay)) with
    | ok r => exact ⟨r.1, r.2, rfl⟩
    | error e => rw [hx] at this; cases this
  obtain ⟨c, o, h⟩ := e
  have q := fun (p : Fin 4) => C90_open true sampleCtx c 4 sampleCtx_count p p.isLt _ _ _ northPlay northPlay_ok _
    (sampleEvents_records _) o h
  have m1 : laidOf 1 northPlay = [20, 22, 23] := by decide +kernel
  have n1 : northsOf 1 northPlay = [] := by decide +kernel
  have m3 : laidOf 3 northPlay = [121] := by decide +kernel
  have n3 : northsOf 3 northPlay = [121] := by decide +kernel
  have q1 := q 1
  have q3 := q 3
  rw [m1, n1] at q1
  rw [m3, n3] at q3
  refine ⟨c, o, h, q1.1, q1.2, q3.1, q3.2, ?_⟩
  intro p
  have hT : ∀ p, ∀ t ∈ sampleHands p, IsTile t := by unfold IsTile; decide +kernel
  have hne : ∀ p, sampleHands p ≠ [] := by decide +kernel
  have hend : NoEnd northPlay := by
    intro e he
    simp [northPlay, samplePlay] at he
    rcases he with rfl | rfl <;> decide +kernel
  exact C90_kept true sampleCtx c 4 sampleCtx_count p p.isLt _ _ _ northPlay (hne p) (hT p) northPlay_ok hend _
    (sampleEvents_records _) o h

end Verif.Props
