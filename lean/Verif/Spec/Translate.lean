import Verif.Spec.State
import Verif.Spec.Command
import Verif.Model.Translate
import Verif.Model.Builder

/-! What translating a record should do, and lexical scoping of keyword arguments. -/
namespace Verif.Spec
open Verif.Py Verif.Model

/-! ### Builder -/

variable {β : Type}

/-- no keyword is given twice -/
def KwOk (kw : KwDict β) : Prop := (kw.map Prod.fst).Nodup

mutual
def ProgOk : BProg β → Prop
  | .call kw => KwOk kw
  | .raise => True
  | .block kw body => KwOk kw ∧ ProgsOk body
  | .guard body => ProgsOk body
def ProgsOk : List (BProg β) → Prop
  | [] => True
  | p :: ps => ProgOk p ∧ ProgsOk ps
end

/-- the keywords of `kw` on top of `env` -/
def override (env : Str → Option β) (kw : KwDict β) : Str → Option β :=
  fun k => match kw.lookup k with | some v => some v | none => env k

mutual
/-- Lexical scoping, without a stack: every constructor call sees the keywords of the blocks around it.  Gives the
    keywords each constructor call sees and whether an exception comes out. -/
def scopedB (bad : (Str → Option β) → Bool) (env : Str → Option β) : BProg β → List (Str → Option β) × Bool
  | .call kw => ([override env kw], bad (override env kw))
  | .raise => ([], true)
  | .block kw body => scopedBs bad (override env kw) body
  | .guard body => ((scopedBs bad env body).1, false)
def scopedBs (bad : (Str → Option β) → Bool) (env : Str → Option β) : List (BProg β) → List (Str → Option β) × Bool
  | [] => ([], false)
  | p :: ps =>
    let r := scopedB bad env p
    if r.2 then r else (r.1 ++ (scopedBs bad env ps).1, (scopedBs bad env ps).2)
end

/-! ### Translation -/

/-- the name of a tile number: red fives are `0`, other tiles number and suit; four copies of every kind -/
def tileName (t : Int) : Str :=
  if t = 16 then "0m".toList else if t = 52 then "0p".toList else if t = 88 then "0s".toList
  else if t < 36 then pyStrInt (t / 4 + 1) ++ "m".toList
  else if t < 72 then pyStrInt ((t - 36) / 4 + 1) ++ "p".toList
  else if t < 108 then pyStrInt ((t - 72) / 4 + 1) ++ "s".toList
  else pyStrInt ((t - 108) / 4 + 1) ++ "z".toList

/-- a tile number -/
def IsTile (t : Int) : Prop := 0 ≤ t ∧ t < 136

/-- the property and sub-scope of a command -/
def keyOf (c : Cmd) : Sub × View := (c.sub, c.prop)

/-- the commands among `cs` about one property of one sub-scope -/
def about (k : Sub × View) (cs : List Cmd) : List Cmd := cs.filter (fun c => decide (keyOf c = k))

/-- property `name` of player `p` -/
def ofPlayer (p : Nat) (name : String) : Sub × View := (.num (p : Int), Verif.Model.view .player name)

/-- the move changes the hand of `p` -/
def ChangesHand (p : Fin 4) : Move → Prop
  | .deal _ _ _ => True
  | .draw q _ => q = p
  | .discard q _ => q = p
  | .meld q _ => q = p
  | _ => False

/-- the last change of the hand of `p` among the moves is drawing tile number `t` -/
def LastDrew (p : Fin 4) (t : Nat) (ms : List Move) : Prop :=
  ∃ a z, ms = a ++ Move.draw p t :: z ∧ ∀ m ∈ z, ¬ ChangesHand p m

/-- numbers of drawn and discarded tiles are tile numbers -/
def MoveTiles : Move → Prop
  | .draw _ t => t < 136
  | .discard _ t => t < 136
  | _ => True

/-- moves of one game after its deal, with real tiles -/
def PlayOk (ms : List Move) : Prop := ∀ m ∈ ms, LegalMove m ∧ m.isDeal = false ∧ MoveTiles m

/-- the events of a record that write down these moves; time stamps may be anything -/
def Records (ts : List TEvent) (ms : List Move) : Prop := ts.map TEvent.ev = ms.map Move.event

/-- every `<REACH>` among the moves has a seat and a step as plain numbers -/
def ReachesOk (ms : List Move) : Prop :=
  ∀ e, .other e ∈ ms → e.tag = "REACH".toList → ∃ (q : Fin 4) (s : Nat),
    e.get "who".toList = .ok (natDigits q.val) ∧ e.get "step".toList = .ok (natDigits s)

/-- no game end among the moves -/
def NoEnd (ms : List Move) : Prop := ∀ e, .other e ∈ ms → e.tag ≠ "AGARI".toList ∧ e.tag ≠ "RYUUKYOKU".toList

/-- the whole number stored as the score of `p` -/
def scoreOf (ctx : Ctx) (p : Nat) : Option Int :=
  match ctx.vals.get (ofPlayer p "score") with
  | .num (.int v) => some v
  | _ => none

/-- the move is player `p` paying the stick of an accepted reach: `<REACH who=p step=2>` -/
def AcceptsReach (p : Fin 4) : Move → Prop
  | .other e => e.tag = "REACH".toList ∧ e.get "who".toList = .ok (natDigits p.val) ∧
      e.get "step".toList = .ok (natDigits 2)
  | _ => False

instance (p : Fin 4) (m : Move) : Decidable (AcceptsReach p m) := by
  cases m <;> unfold AcceptsReach <;> infer_instance

end Verif.Spec
