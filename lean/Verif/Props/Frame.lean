import Verif.Proofs.Frame
import Verif.Props.Flatten
import Verif.Props.Translate

/-!
C70: the tables of a record.
-/
namespace Verif.Props
open Verif.Py Verif.Model Verif.Spec Verif.Proofs

/-- **C70.** Every command made of a record is about an existing property of the record, of the game or of a player
    0 to 3, and carries as its state the value the interpreter has for that property after all commands up to it. -/
theorem C70_commands (left : Ctx → TEvent → Ctx) (strict : Bool) (ctx : Ctx) (events : List TEvent)
    (hseat : ∀ t ∈ events, Seated t.ev) (cs : List Cmd) (h : (toCommands left strict ctx events).2 = .ok cs)
    (k : Nat) (c : Cmd) (hc : cs[k]? = some c) :
    Addressed c ∧ ∃ s, interpretAll [] (cs.take (k + 1)) = .ok s ∧ s.lookup (c.sub, c.prop) = some c.state := by
  obtain ⟨s', h'⟩ := carried_all left strict events hseat ctx.clear sound_nil cs h
  obtain ⟨hf, _, s, _, _, _, a, b, _⟩ := carried_at h' hc
  exact ⟨hf.addressed, s, a, b⟩

/-- **C70.** Every such command can be written as a record and is read back from it unchanged, except that a player's
    rate comes back as a text. -/
theorem C70_records (showVal : Val → Str) (left : Ctx → TEvent → Ctx) (strict : Bool) (ctx : Ctx) (events : List TEvent)
    (hseat : ∀ t ∈ events, Seated t.ev) (cs : List Cmd) (h : (toCommands left strict ctx events).2 = .ok cs)
    (c : Cmd) (hc : c ∈ cs) :
    ∃ r, c.toRecord showVal = .ok r ∧
      (c.prop ≠ view .player "extra_level" → Cmd.fromRecord r = .ok c) ∧
      (c.prop = view .player "extra_level" →
        Cmd.fromRecord r = .ok { c with value := .str (pyStrVal showVal c.value), state := .str (pyStrVal showVal c.state) }) := by
  obtain ⟨s', h'⟩ := carried_all left strict events hseat ctx.clear sound_nil cs h
  exact carried_record showVal h' hc

/-- **C70.** The tables of a record exist whenever it can be translated, have one row per command each, and agree: in
    every row of the state table, the cell of the property its command is about holds the text in the command's own
    state column, and the time cell holds the command's timestamp.  If it cannot be translated, that exception is
    raised. -/
theorem C70_frames (showVal : Val → Str) (left : Ctx → TEvent → Ctx) (ctx : Ctx) (events : List TEvent)
    (hseat : ∀ t ∈ events, Seated t.ev) :
    (∀ x, (toCommands left false ctx events).2 = .error x → parseDataframes showVal left ctx events = .error x) ∧
    ∀ cs, (toCommands left false ctx events).2 = .ok cs →
      ∃ commandRows stateRows, parseDataframes showVal left ctx events = .ok (commandRows, stateRows) ∧
        commandRows.length = cs.length ∧ stateRows.length = cs.length ∧
        ∀ (k : Nat) c, cs[k]? = some c → ∃ r row t, commandRows[k]? = some r ∧ stateRows[k]? = some row ∧
          c.toRecord showVal = .ok r ∧ r.state = .text t ∧ (row.map Prod.fst).Nodup ∧
          (placeOf c.sub c.prop, t) ∈ row ∧
          ([.text "global".toList, .text "time".toList, .text "timestamp".toList], jsonDumps (timeLeaf c.timestamp)) ∈ row := by
  constructor
  · intro x hx
    unfold parseDataframes
    rw [hx]
    rfl
  · intro cs h
    obtain ⟨s', h'⟩ := carried_all left false events hseat ctx.clear sound_nil cs h
    have hf := carried_fines h'
    have haddr : ∀ c ∈ cs, Addressed c := fun c hc => (hf c hc).addressed
    obtain ⟨e1, e2⟩ := carried_run h'
    obtain ⟨rs, hrs⟩ := mapM_total (f := Cmd.toRecord showVal) (l := cs) (fun c hc => by
      obtain ⟨r, hr, _⟩ := carried_record showVal h' hc
      exact ⟨r, hr⟩)
    have hst := C69_states showVal false cs haddr
    obtain ⟨rows, hrows⟩ := mapM_total (f := TD.flatten showVal) (l := (execute false cs).1) (fun y hy => by
      obtain ⟨k, hk⟩ := List.getElem?_of_mem hy
      obtain ⟨_, _, row, _, _, hr, _⟩ := hst k y hk
      exact ⟨row, hr⟩)
    obtain ⟨l1, g1⟩ := mapM_get hrs
    obtain ⟨l2, g2⟩ := mapM_get hrows
    refine ⟨rs, rows, ?_, l1, l2.trans e2, ?_⟩
    · unfold parseDataframes
      rw [h]
      simp only [bind, Except.bind, hrs, e1, hrows, pure, Except.pure]
    · intro k c hc
      obtain ⟨r, hr, hrec⟩ := g1 k c hc
      have hkl : k < (execute false cs).1.length := by
        rw [e2]
        exact (List.getElem?_eq_some_iff.1 hc).1
      have hy := List.getElem?_eq_getElem hkl
      obtain ⟨row, hrow, hfl⟩ := g2 k _ hy
      obtain ⟨c', s, row', hc', hs, hfl', hnd, hiff⟩ := hst k _ hy
      rw [hfl] at hfl'
      cases hfl'
      rw [hc] at hc'
      cases hc'
      obtain ⟨hfc, _, s1, _, _, _, hs1, hlk, _⟩ := carried_at h' hc
      rw [hs] at hs1
      cases hs1
      obtain ⟨_, sc, n, kd, htab, hp, _, _⟩ := hfc
      have hkd : HasKind c.prop kd := ⟨sc, n, htab, hp⟩
      obtain ⟨nm, hn, _⟩ := name_kind ⟨kd, hkd⟩
      have hrq := toRecord_eq showVal c hkd nm hn
      rw [hrec] at hrq
      cases hrq
      refine ⟨_, row, _, hr, hrow, hrec, rfl, hnd, ?_, ?_⟩
      · rw [hiff]
        refine .inr ⟨c.sub, c.prop, c.state, kd, hlk, rfl, hkd, ?_⟩
        unfold cellText
        cases c.state <;> rfl
      · rw [hiff]
        exact .inl ⟨rfl, rfl⟩

/-- `<UN n0="A" n1="B" n2="C" n3="D" dan="1,2,3,4" rate="1500,1600.5,1500,1500">` -/
def sampleUn : TEvent := ⟨1, ⟨"UN".toList, [("n0".toList, "A".toList), ("n1".toList, "B".toList), ("n2".toList, "C".toList),
  ("n3".toList, "D".toList), ("dan".toList, "1,2,3,4".toList), ("rate".toList, "1500,1600.5,1500,1500".toList)]⟩⟩

/-- a whole game: game type, players, first dealer, a deal with its play, a win -/
def sampleTable : List TEvent := [sampleGo, sampleUn, sampleTaikyoku] ++ sampleEvents (sampleDeal :: samplePlay) ++ [sampleAgari]

example : ∀ t ∈ sampleTable, Seated t.ev := by
  have h : ∀ t ∈ sampleTable, seatedB t.ev = true := by decide +kernel
  exact fun t ht => seated_of_B (h t ht)
set_option maxRecDepth 100000 in
theorem sampleTable_length : ((toCommands (fun c _ => c) false {} sampleTable).2.map List.length) = .ok 132 := by decide +kernel

/-- **C70.** The rates are decimals in the commands and texts when read back. -/
theorem C70_rate_becomes_text : ∃ cs c r c', (toCommands (fun c _ => c) false {} [sampleUn]).2 = .ok cs ∧ c ∈ cs ∧
    c.value = .num (.dec 16005 1) ∧ c.toRecord (fun _ => "1600.5".toList) = .ok r ∧ Cmd.fromRecord r = .ok c' ∧
    c'.value = .str "1600.5".toList := by
  refine ⟨_, _, _, _, rfl, List.mem_of_getElem? (i := 7) rfl, ?_, rfl, rfl, ?_⟩ <;> decide +kernel

/-- **C70.** An event naming a player 7 is translated, but then there are no tables -/
theorem C70_unseated : ∃ events cs, (toCommands (fun c _ => c) false {} events).2 = .ok cs ∧
    parseDataframes (fun _ => []) (fun c _ => c) {} events = .error .valueError :=
  ⟨[⟨0, ⟨"BYE".toList, [("who".toList, "7".toList)]⟩⟩], _, rfl, by decide +kernel⟩

end Verif.Props
