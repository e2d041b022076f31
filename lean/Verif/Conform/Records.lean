import Verif.Conform.RecordA
import Verif.Conform.RecordB
import Verif.Conform.RecordC
import Verif.Conform.RecordD
import Verif.Conform.RecordE
import Verif.Conform.RecordF
import Verif.Props.Pages

/-! The six records of the repository's tests meet the hypotheses of C103 and C104, and so what these say holds of them. -/
namespace Verif.Conform
open Verif.Py Verif.Model Verif.Spec Verif.Spec.Html Verif.Proofs Verif.Props

def testTexts : List String := [textA, textB, textC, textD, textE, textF]

theorem test_checked : ∀ t ∈ testTexts, checked t.toList = true := by
  intro t ht
  simp only [testTexts, List.mem_cons, List.not_mem_nil, or_false] at ht
  rcases ht with rfl | rfl | rfl | rfl | rfl | rfl
  · exact textA_checked
  · exact textB_checked
  · exact textC_checked
  · exact textD_checked
  · exact textE_checked
  · exact textF_checked

theorem checked_complete {t : Str} (h : checked t = true) : ∃ tag attrib kids, DocText (.mk tag attrib kids) t ∧
    ∃ (before : List Event) (go : Event) (header : List Event) (plays : List Play) (v : Nat),
      CompleteAs (kids.map (fun k => (⟨k.tag, k.attrib⟩ : Event))) before go header (plays.map Play.events) v ∧
      (∀ g ∈ plays, ∀ e ∈ g.events, WinShown (playersOf v) e) ∧ ∀ p : Fin 4, p.val < playersOf v → ∀ g ∈ plays, g.Fair p := by
  unfold checked at h
  split at h
  · rename_i root hr
    obtain ⟨tag, attrib, kids⟩ := root
    rw [Bool.and_eq_true] at h
    obtain ⟨q, hq, hc⟩ := completeB_ok h.1
    obtain ⟨f1, f2⟩ := fairRecordB_ok hq h.2
    exact ⟨tag, attrib, kids, (C99_reads _ _).1 hr, q.before, q.go, q.header, q.plays, q.v, hc, f1, f2⟩
  · cases h

/-- the elements of the record are complete, and in it the players keep to the rules: the hypotheses of C103 and C104 -/
theorem test_records_complete (t : String) (ht : t ∈ testTexts) : ∃ tag attrib kids, DocText (.mk tag attrib kids) t.toList ∧
    ∃ (before : List Event) (go : Event) (header : List Event) (plays : List Play) (v : Nat),
      CompleteAs (kids.map (fun k => (⟨k.tag, k.attrib⟩ : Event))) before go header (plays.map Play.events) v ∧
      (∀ g ∈ plays, ∀ e ∈ g.events, WinShown (playersOf v) e) ∧ ∀ p : Fin 4, p.val < playersOf v → ∀ g ∈ plays, g.Fair p :=
  checked_complete (test_checked t ht)

/-- the record is built and converted -/
theorem test_records_convert (t : String) (ht : t ∈ testTexts) (left : Ctx → TEvent → Ctx) (ctx : Ctx) :
    ∃ r cs, recordOfText t.toList = some (.ok r) ∧ (toCommands left false ctx r.events).2 = .ok cs := by
  obtain ⟨tag, attrib, kids, hd, before, go, header, plays, v, hc, _⟩ := test_records_complete t ht
  have hcomplete : Complete (kids.map (fun k => (⟨k.tag, k.attrib⟩ : Event))) := ⟨before, go, header, plays.map Play.events, v, hc⟩
  obtain ⟨r, hr⟩ := C103_built _ hcomplete
  obtain ⟨hev, _, _⟩ := C37_record _ r hr
  obtain ⟨cs, hcs⟩ := C103_converts left ctx r.events (by
    rw [show r.events.map TEvent.ev = _ from hev]; exact complete_regular hcomplete)
  exact ⟨r, cs, by rw [(C99_record t.toList).1 tag attrib kids hd, hr], hcs⟩

/-- the page of every player of the record is made, and right, or the program stops at a discard as C104 says -/
theorem test_records_page (t : String) (ht : t ∈ testTexts) (iter : List Int → List Int) (hi : ∀ l, (iter l).Perm l) (decode : Str → Str)
    (semi : Bool) (name : TPlayer → Str) (picture : Str → Except PyErr (List Nat))
    (hpic : ∀ t ∈ shownTiles, ∃ bytes, picture (t ++ ".png".toList) = .ok bytes) (float : Rat → Str) (logUrl logId : Option Str)
    (generate : Bool) (hs : SourceKnown decode semi logUrl logId generate) :
    ∃ (record : TRecord) (plays : List Play), recordOfText t.toList = some (.ok record) ∧
      record.games.map (fun g => g.events.map TEvent.ev) = plays.map Play.events ∧ ∀ (p : Fin 4) player, record.players[p.val]? = some player →
      ((∃ file page html shown, renderTemplate iter decode semi name player record logUrl logId generate = .ok (file, page) ∧
          page.html picture float name = .ok html ∧ readGames html = some shown ∧
          PageRight float p (decide (record.players.length = 4)) plays shown) ∨
       ∃ g ∈ plays, ∃ pre t post, g.moves = pre ++ .discard p t :: post ∧
          (renderTemplate iter decode semi name player record logUrl logId generate = .error .runtimeError ∧ AlreadyWon p (g.deal :: pre) ∨
           renderTemplate iter decode semi name player record logUrl logId generate = .error .zeroDivision ∧ ¬ AlreadyWon p (g.deal :: pre))) := by
  obtain ⟨tag, attrib, kids, hd, before, go, header, plays, v, hc, hw, hf⟩ := test_records_complete t ht
  obtain ⟨r, hr, hgames, _⟩ := complete_ok hc
  have hrec : recordOfText t.toList = some (.ok r) := by rw [(C99_record t.toList).1 tag attrib kids hd, hr]
  refine ⟨r, plays, hrec, hgames, fun p player hpl => ?_⟩
  have hn : playersOf v = 3 ∨ playersOf v = 4 := by unfold playersOf; split <;> simp
  have hlen : r.players.length = playersOf v := by
    obtain ⟨r', _, h1, _, _, h4, _⟩ := C104_page iter hi decode semi name picture hpic float t.toList tag attrib kids hd before go header plays v hc
      hw 0 (by show 0 < _; omega) (hf 0 (by show 0 < _; omega)) logUrl logId generate hs
    rw [hrec, Option.some.injEq, Except.ok.injEq] at h1
    rw [h1, h4]
  have hp : p.val < playersOf v := by
    rw [← hlen]
    exact (List.getElem?_eq_some_iff.1 hpl).1
  obtain ⟨r', player', h1, h2, _, _, h5⟩ := C104_page iter hi decode semi name picture hpic float t.toList tag attrib kids hd before go header plays v hc
      hw p hp (hf p hp) logUrl logId generate hs
  rw [hrec, Option.some.injEq, Except.ok.injEq] at h1
  subst h1
  rw [hpl, Option.some.injEq] at h2
  subst h2
  rw [hlen]
  rcases h5 with h5 | ⟨g, hg, pre, x, post, e, h5⟩
  · exact .inl h5
  · refine .inr ⟨g, hg, pre, x, post, e, ?_⟩
    rcases h5 with h5 | ⟨h5, h6, _⟩
    · exact .inl h5
    · exact .inr ⟨h5, h6⟩

end Verif.Conform
