import Verif.Proofs.Frontend
import Verif.Proofs.Frame
import Verif.Proofs.TranslateScore2

/-! C73 to C75: whom the front end reports on, the files and pages it makes, the tiles it shows, the players. -/
namespace Verif.Props
open Verif.Py Verif.Model Verif.Spec Verif.Proofs

/-! ### The players reported on -/

/-- **C73.** Typing the number of a player, counted from 1, picks that player and nobody else. -/
theorem C73_pick {α : Type} (input : Str) (players : List α) (k : Nat) (hk : 1 ≤ k) (p : α) (hp : players[k - 1]? = some p)
    (h : Writes input k) : plannedPlayers input players = [p] := by
  obtain ⟨h1, h2, h3⟩ := writes_val h
  obtain ⟨hlt, _⟩ := List.getElem?_eq_some_iff.1 hp
  unfold plannedPlayers
  rw [if_pos ⟨h1, h2⟩, h3]
  have : ((k : Int) - 1).toNat = k - 1 := by omega
  simp only [this, hp]
  rw [if_pos (by omega)]

/-- **C73.** Any other text, such as none, stands for all players, in the order of the record. -/
theorem C73_all {α : Type} (input : Str) (players : List α)
    (h : ∀ k, 1 ≤ k → k ≤ players.length → ¬ Writes input k) : plannedPlayers input players = players := by
  unfold plannedPlayers
  split
  · rename_i hd
    obtain ⟨hw, h0⟩ := writes_digitsVal input hd.1 hd.2
    simp only
    split
    · rename_i hr
      exact absurd hw (h _ (by omega) (by omega))
    · rfl
  · rfl

example : plannedPlayers "02".toList ["a", "b", "c"] = ["b"] ∧ plannedPlayers "4".toList ["a", "b", "c"] = ["a", "b", "c"] ∧
    plannedPlayers "".toList ["a", "b", "c"] = ["a", "b", "c"] := by decide

/-! ### The files -/

theorem append_stop_inj {c : Char} {a a' b b' : Str} (ha : c ∉ a) (ha' : c ∉ a') (h : a ++ c :: b = a' ++ c :: b') :
    a = a' ∧ b = b' := by
  induction a generalizing a' with
  | nil =>
    cases a' with
    | nil => exact ⟨rfl, by simpa using h⟩
    | cons x a' =>
      simp only [List.nil_append, List.cons_append, List.cons.injEq] at h
      exact absurd (by simp [h.1]) ha'
  | cons x a ih =>
    cases a' with
    | nil =>
      simp only [List.nil_append, List.cons_append, List.cons.injEq] at h
      exact absurd (by simp [h.1]) ha
    | cons y a' =>
      simp only [List.cons_append, List.cons.injEq] at h
      obtain ⟨e1, e2⟩ := ih (a' := a') (by simp at ha; exact ha.2) (by simp at ha'; exact ha'.2) h.2
      exact ⟨by rw [h.1, e1], e2⟩

theorem digits_no_underscore (n : Nat) : '_' ∉ natDigits n := by
  intro h
  exact absurd (natDigits_all n _ h) (by decide)

/-- **C73.** Different reports go to different files: for record ids without `_` the file's name tells the record,
    the player's name and the seat. -/
theorem C73_names (id id' name name' : Str) (i i' : Nat) (h1 : '_' ∉ id) (h2 : '_' ∉ id')
    (h : reportName id name i = reportName id' name' i') : id = id' ∧ name = name' ∧ i = i' := by
  unfold reportName at h
  simp only [List.append_assoc, List.cons_append, List.append_cancel_left_eq] at h
  obtain ⟨e1, e2⟩ := append_stop_inj h1 h2 h
  have e3 := congrArg List.reverse e2
  rw [show ∀ n : Str, ∀ j : Nat, (n ++ '_' :: (natDigits j ++ ".html".toList)).reverse =
    ".html".toList.reverse ++ ((natDigits j).reverse ++ '_' :: n.reverse) by intro n j; simp] at e3
  rw [show ∀ n : Str, ∀ j : Nat, (n ++ '_' :: (natDigits j ++ ".html".toList)).reverse =
    ".html".toList.reverse ++ ((natDigits j).reverse ++ '_' :: n.reverse) by intro n j; simp] at e3
  rw [List.append_cancel_left_eq] at e3
  obtain ⟨e4, e5⟩ := append_stop_inj (by simpa using digits_no_underscore i) (by simpa using digits_no_underscore i') e3
  exact ⟨e1, List.reverse_inj.1 e5, natDigits_inj (List.reverse_inj.1 e4)⟩

/-- **C73.** Within one record the names are different whatever the id is. -/
theorem C73_one_record (id name name' : Str) (i i' : Nat) (h : reportName id name i = reportName id name' i') :
    name = name' ∧ i = i' := by
  unfold reportName at h
  simp only [List.append_assoc, List.cons_append, List.append_cancel_left_eq, List.cons.injEq, true_and] at h
  have := C73_names [] [] name name' i i' (by simp) (by simp) (by unfold reportName; simp only [List.append_assoc, List.cons_append, h])
  exact this.2

/-- **C73.** Ids with `_` can share a file. -/
theorem C73_clash : reportName "a_b".toList "c".toList 0 = reportName "a".toList "b_c".toList 0 := by decide

/-! ### The pages -/

theorem render_ok {iter : List Int → List Int} {decode : Str → Str} {semi : Bool} {name : TPlayer → Str} {player : TPlayer}
    {record : TRecord} {logUrl logId : Option Str} {generate : Bool} {file : Option Str} {page : Page}
    (h : renderTemplate iter decode semi name player record logUrl logId generate = .ok (file, page)) :
    page.player = player ∧ page.record = record ∧ page.tiles = shownTiles ∧
    record.games.mapM (fun g => do
      let title ← g.title name record.gameType record.players
      let rounds ← playerReports iter record player g
      pure (title, rounds)) = .ok page.games ∧
    ∃ id, (generate = true → file = some (reportName (id.getD "None".toList) (name player) player.index)) ∧
      (generate = false → file = none) ∧
      ((∃ u i, logUrl = some u ∧ logIdFromUrl decode semi u = .ok i ∧ page.logUrl = some u ∧ id = some i) ∨
       (∃ i, logUrl = none ∧ logId = some i ∧ page.logUrl = some (logIdToUrl i) ∧ id = some i) ∨
       (logUrl = none ∧ logId = none ∧ generate = false ∧ page.logUrl = none ∧ id = none)) := by
  unfold renderTemplate at h
  simp only [bind_ok] at h
  obtain ⟨games, hg, h⟩ := h
  cases logUrl with
  | some u =>
    simp only [bind_ok, pure_ok] at h
    obtain ⟨⟨url, id⟩, ⟨i, h1, h2⟩, h3⟩ := h
    cases h2
    cases generate <;> simp only [if_true, if_false, Bool.false_eq_true, pure_ok] at h3 <;> cases h3
    · exact ⟨rfl, rfl, rfl, hg, some i, by simp, by simp, Or.inl ⟨u, i, rfl, h1, rfl, rfl⟩⟩
    · exact ⟨rfl, rfl, rfl, hg, some i, by simp, by simp, Or.inl ⟨u, i, rfl, h1, rfl, rfl⟩⟩
  | none =>
    cases logId with
    | some i =>
      simp only [bind_ok, pure_ok] at h
      obtain ⟨⟨url, id⟩, h2, h3⟩ := h
      cases h2
      cases generate <;> simp only [if_true, if_false, Bool.false_eq_true, pure_ok] at h3 <;> cases h3
      · exact ⟨rfl, rfl, rfl, hg, some i, by simp, by simp, Or.inr (Or.inl ⟨i, rfl, rfl, rfl, rfl⟩)⟩
      · exact ⟨rfl, rfl, rfl, hg, some i, by simp, by simp, Or.inr (Or.inl ⟨i, rfl, rfl, rfl, rfl⟩)⟩
    | none =>
      simp only [bind_ok, pure_ok] at h
      obtain ⟨⟨url, id⟩, h2, h3⟩ := h
      cases generate
      · simp only [Bool.false_eq_true, if_false, pure_ok] at h2 h3
        cases h2
        cases h3
        exact ⟨rfl, rfl, rfl, hg, none, by simp, by simp, Or.inr (Or.inr ⟨rfl, rfl, rfl, rfl, rfl⟩)⟩
      · simp at h2

/-- **C73.** A page has one section per game of the record, in order, with that game's title and the reports of the
    player the page is for. -/
theorem C73_page (iter : List Int → List Int) (decode : Str → Str) (semi : Bool) (name : TPlayer → Str) (player : TPlayer)
    (record : TRecord) (logUrl logId : Option Str) (generate : Bool) (file : Option Str) (page : Page)
    (h : renderTemplate iter decode semi name player record logUrl logId generate = .ok (file, page)) :
    page.player = player ∧ page.record = record ∧ page.games.length = record.games.length ∧
    ∀ (k : Nat) g, record.games[k]? = some g → ∃ title rounds, page.games[k]? = some (title, rounds) ∧
      g.title name record.gameType record.players = .ok title ∧ ∃ hp : player.index < 4,
      gameReasonList iter ⟨player.index, hp⟩ (decide (record.players.length = 4)) (g.events.map TEvent.ev) = .ok rounds := by
  obtain ⟨a, b, _, hg, _⟩ := render_ok h
  obtain ⟨hl, hk⟩ := mapM_get hg
  refine ⟨a, b, hl, ?_⟩
  intro k g hkg
  obtain ⟨⟨title, rounds⟩, e1, e2⟩ := hk k g hkg
  simp only [bind_ok, pure_ok] at e2
  obtain ⟨t, e3, r, e4, e5⟩ := e2
  cases e5
  unfold playerReports at e4
  split at e4
  · rename_i hp
    exact ⟨title, rounds, e1, e3, hp, e4⟩
  · cases e4

/-- **C73.** The link on the page and the name of the file, when the record's url is known, when only its id is, and
    when neither is; without either no file can be named. -/
theorem C73_link (iter : List Int → List Int) (decode : Str → Str) (semi : Bool) (name : TPlayer → Str) (player : TPlayer)
    (record : TRecord) (logUrl logId : Option Str) (generate : Bool) (file : Option Str) (page : Page)
    (h : renderTemplate iter decode semi name player record logUrl logId generate = .ok (file, page)) :
    (file.isSome = generate) ∧
    (∀ u, logUrl = some u → page.logUrl = some u ∧ ∃ id, logIdFromUrl decode semi u = .ok id ∧
      ∀ f, file = some f → f = reportName id (name player) player.index) ∧
    (∀ id, logUrl = none → logId = some id → page.logUrl = some (logIdToUrl id) ∧
      ∀ f, file = some f → f = reportName id (name player) player.index) ∧
    (logUrl = none → logId = none → page.logUrl = none ∧ file = none) := by
  obtain ⟨_, _, _, _, id, f1, f2, hc⟩ := render_ok h
  refine ⟨by cases generate <;> simp_all, ?_, ?_, ?_⟩
  · intro u hu
    rcases hc with ⟨u', i, e1, e2, e3, e4⟩ | ⟨i, e1, _⟩ | ⟨e1, _⟩
    · rw [e1] at hu
      cases hu
      refine ⟨e3, i, e2, ?_⟩
      intro f hf
      cases generate with
      | false => rw [f2 rfl] at hf; cases hf
      | true => rw [f1 rfl, e4] at hf; cases hf; rfl
    · rw [e1] at hu; cases hu
    · rw [e1] at hu; cases hu
  · intro i hu hl
    rcases hc with ⟨u', i, e1, e2, e3, e4⟩ | ⟨i', e1, e2, e3, e4⟩ | ⟨e1, e2, _⟩
    · rw [e1] at hu; cases hu
    · rw [e2] at hl
      cases hl
      refine ⟨e3, ?_⟩
      intro f hf
      cases generate with
      | false => rw [f2 rfl] at hf; cases hf
      | true => rw [f1 rfl, e4] at hf; cases hf; rfl
    · rw [e2] at hl; cases hl
  · intro hu hl
    rcases hc with ⟨u', i, e1, e2, e3, e4⟩ | ⟨i', e1, e2, e3, e4⟩ | ⟨e1, e2, e3, e4, e5⟩
    · rw [e1] at hu; cases hu
    · rw [e2] at hl; cases hl
    · exact ⟨e4, f2 e3⟩

/-- **C73.** Asking the checker for a file about a record given as an object, not as a url, never works. -/
theorem C73_record_file (iter : List Int → List Int) (decode : Str → Str) (semi : Bool) (name : TPlayer → Str)
    (fetch : Str → Except PyErr TRecord) (r : TRecord) (i : Int) :
    ∃ x, checkerParse iter decode semi name fetch (.record r) i true = .error x := by
  cases h : checkerParse iter decode semi name fetch (.record r) i true with
  | error x => exact ⟨x, rfl⟩
  | ok v =>
    obtain ⟨file, page⟩ := v
    unfold checkerParse at h
    simp only [bind_ok, pure_ok] at h
    obtain ⟨⟨r', u⟩, e, p, _, h⟩ := h
    cases e
    obtain ⟨e1, _, _, e2⟩ := C73_link iter decode semi name p r none none true file page h
    rw [(e2 rfl rfl).2] at e1
    cases e1

/-- **C73.** The checker makes the page of the player at the position asked for; negative positions count from the
    end; other positions, and sources that are neither a url nor a record, are errors. -/
theorem C73_checker (iter : List Int → List Int) (decode : Str → Str) (semi : Bool) (name : TPlayer → Str)
    (fetch : Str → Except PyErr TRecord) (source : Source) (i : Int) (generate : Bool) :
    (source = .other → checkerParse iter decode semi name fetch source i generate = .error .typeError) ∧
    ∀ record url, (source = .record record ∧ url = none ∨ ∃ u, source = .url u ∧ url = some u ∧ fetch u = .ok record) →
      (∀ (k : Nat) p, (i = k ∨ i = (k : Int) - record.players.length) → record.players[k]? = some p →
        checkerParse iter decode semi name fetch source i generate =
          renderTemplate iter decode semi name p record url none generate) ∧
      ((i < -record.players.length ∨ record.players.length ≤ i) →
        checkerParse iter decode semi name fetch source i generate = .error .indexError) := by
  refine ⟨by rintro rfl; rfl, ?_⟩
  intro record url hs
  have key : checkerParse iter decode semi name fetch source i generate =
      (do let player ← pyIdx record.players i
          renderTemplate iter decode semi name player record url none generate) := by
    rcases hs with ⟨rfl, rfl⟩ | ⟨u, rfl, rfl, hf⟩
    · rfl
    · unfold checkerParse
      simp only [hf]
      rfl
  rw [key]
  refine ⟨?_, ?_⟩
  · intro k p hk hp
    obtain ⟨hlt, _⟩ := List.getElem?_eq_some_iff.1 hp
    have : pyIdx record.players i = .ok p := by
      unfold pyIdx
      rcases hk with rfl | rfl
      · rw [if_pos (by omega)]
        simp only [Int.toNat_natCast, hp]
      · rw [if_neg (by omega), if_pos (by omega)]
        have : ((k : Int) - record.players.length + record.players.length).toNat = k := by omega
        simp only [this, hp]
    rw [this]
    rfl
  · intro hi
    have : pyIdx record.players i = .error .indexError := by
      unfold pyIdx
      by_cases h0 : 0 ≤ i
      · have : record.players[i.toNat]? = none := by rw [List.getElem?_eq_none_iff]; omega
        rw [if_pos h0]
        simp only [this]
      · rw [if_neg h0, if_neg (by omega)]
    rw [this]
    rfl

/-! ### The run -/

theorem write_spec (render : TPlayer → Except PyErr (Option Str × Page)) (players : List TPlayer) :
    ∃ done, done <+: players ∧ (writeReports render players).1.length = done.length ∧
      (∀ (k : Nat) p, done[k]? = some p → ∃ file page, render p = .ok (file, page) ∧
        (writeReports render players).1[k]? = some (file.getD [], page)) ∧
      ((writeReports render players).2 = none → done = players) ∧
      (∀ x, (writeReports render players).2 = some x → ∃ p rest, players = done ++ p :: rest ∧ render p = .error x) := by
  induction players with
  | nil => exact ⟨[], by simp, rfl, by simp, by simp, by simp [writeReports]⟩
  | cons p ps ih =>
    cases hp : render p with
    | error x =>
      refine ⟨[], by simp, by simp [writeReports, hp], by simp, by simp [writeReports, hp], ?_⟩
      intro y hy
      simp only [writeReports, hp, Option.some.injEq] at hy
      exact ⟨p, ps, rfl, by rw [hp, hy]⟩
    | ok v =>
      obtain ⟨file, page⟩ := v
      obtain ⟨done, d1, d2, d3, d4, d5⟩ := ih
      refine ⟨p :: done, by simpa using d1, by simp [writeReports, hp, d2], ?_, ?_, ?_⟩
      · intro k q hq
        cases k with
        | zero =>
          simp only [List.getElem?_cons_zero, Option.some.injEq] at hq
          subst hq
          exact ⟨file, page, hp, by simp [writeReports, hp]⟩
        | succ k =>
          obtain ⟨f, g, e1, e2⟩ := d3 k q (by simpa using hq)
          exact ⟨f, g, e1, by simpa [writeReports, hp] using e2⟩
      · intro h
        simp only [writeReports, hp] at h
        rw [d4 h]
      · intro x hx
        simp only [writeReports, hp] at hx
        obtain ⟨q, rest, e1, e2⟩ := d5 x hx
        exact ⟨q, rest, by rw [e1]; rfl, e2⟩

/-- **C73.** A run writes, for the planned players in order, one page each, named after the record's id, the player's
    name and the seat; when a page cannot be made the run ends there and the files of the players before it remain. -/
theorem C73_run (iter : List Int → List Int) (decode : Str → Str) (semi : Bool) (name : TPlayer → Str) (record : TRecord)
    (url input : Str) (files : List (Str × Page)) (x : Option PyErr)
    (h : mainRun iter decode semi name record url input = (files, x)) :
    files.length ≤ (plannedPlayers input record.players).length ∧
    (x = none ↔ files.length = (plannedPlayers input record.players).length) ∧
    ∀ (k : Nat) f page, files[k]? = some (f, page) → ∃ p id, (plannedPlayers input record.players)[k]? = some p ∧
      page.player = p ∧ page.record = record ∧ page.logUrl = some url ∧ logIdFromUrl decode semi url = .ok id ∧
      f = reportName id (name p) p.index := by
  unfold mainRun at h
  obtain ⟨done, d1, d2, d3, d4, d5⟩ := write_spec (fun p => renderTemplate iter decode semi name p record (some url) none true)
    (plannedPlayers input record.players)
  rw [h] at d2 d3 d4 d5
  simp only at d2 d3 d4 d5
  refine ⟨by rw [d2]; exact d1.length_le, ?_, ?_⟩
  · constructor
    · intro hx
      rw [d2, d4 hx]
    · intro hl
      cases x with
      | none => rfl
      | some y =>
        obtain ⟨p, rest, e1, _⟩ := d5 y rfl
        rw [e1] at hl
        simp at hl
        omega
  · intro k f page hk
    obtain ⟨hlt, _⟩ := List.getElem?_eq_some_iff.1 hk
    have hd : done[k]? = some (done[k]'(by omega)) := List.getElem?_eq_getElem _
    obtain ⟨file, page', e1, e2⟩ := d3 k _ hd
    rw [hk] at e2
    cases e2
    obtain ⟨p1, p2, _⟩ := C73_page _ _ _ _ _ _ _ _ _ _ _ e1
    obtain ⟨l1, l2, _⟩ := C73_link _ _ _ _ _ _ _ _ _ _ _ e1
    obtain ⟨l3, id, l4, l5⟩ := l2 url rfl
    obtain ⟨f', rfl⟩ := Option.isSome_iff_exists.1 l1
    refine ⟨_, id, ?_, p1, p2, l3, l4, l5 f' rfl⟩
    obtain ⟨t, ht⟩ := d1
    rw [← ht, List.getElem?_append_left (by omega)]
    exact hd

theorem makePlayers_get (i : Nat) (ns : List Str) (ds rs : List Num) (ss : List Str) (c : Nat) :
    (makePlayers i ns ds rs ss c).length = min (min ns.length ds.length) (min (min rs.length ss.length) c) ∧
    ∀ (k : Nat) p, (makePlayers i ns ds rs ss c)[k]? = some p → p.index = i + k ∧ ns[k]? = some p.nameEncoded ∧
      ds[k]? = some p.level ∧ rs[k]? = some p.rate ∧ ss[k]? = some p.sex := by
  fun_induction makePlayers i ns ds rs ss c with
  | case1 i n ns d ds r rs s ss c ih =>
    refine ⟨by simp only [List.length_cons, ih.1]; omega, ?_⟩
    intro k p hk
    cases k with
    | zero => simp only [List.getElem?_cons_zero, Option.some.injEq] at hk; subst hk; simp
    | succ k =>
      have := ih.2 k p (by simpa using hk)
      simp only [List.getElem?_cons_succ]
      exact ⟨by omega, this.2⟩
  | case2 =>
    refine ⟨?_, by simp⟩
    rename_i c i ns ds rs ss hno
    rcases ns with _ | ⟨n, ns⟩ <;> rcases ds with _ | ⟨d, ds⟩ <;> rcases rs with _ | ⟨r, rs⟩ <;>
      rcases ss with _ | ⟨s, ss⟩ <;> rcases c with _ | c <;> simp
    exact hno n ns d ds r rs s ss c rfl rfl rfl rfl rfl

theorem metaAttr_find {l : List TEvent} {tag attr : String} {v : Str} (h : metaAttr l tag attr = .ok v) (rest : List TEvent) :
    ∃ e, ((l ++ rest).map (·.ev)).find? (fun e => decide (e.tag = tag.toList)) = some e ∧ e.get attr.toList = .ok v := by
  unfold metaAttr at h
  cases hf : l.find? (fun e => decide (e.ev.tag = tag.toList)) with
  | none => rw [hf] at h; cases h
  | some e =>
    rw [hf] at h
    refine ⟨e.ev, ?_, ?_⟩
    · rw [List.find?_map]
      simp only [Function.comp_def]
      rw [List.find?_append, hf]
      rfl
    · unfold Event.get
      simp only at h
      cases hl : e.ev.attrib.lookup attr.toList with
      | none => rw [hl] at h; cases h
      | some w => rw [hl] at h; cases h; rfl

/-- **C75.** The players of a record are those of its first `UN` element, numbered in order: player `k` has name
    `n0` .. `n3`, and entry `k` of the lists of levels, ratings and sexes.  There are three players if the type says so
    and four otherwise, unless one of the lists is shorter. -/
theorem C75_players (es : List Event) (r : TRecord) (h : TRecord.make es = .ok r) :
    ∃ (un : Event) (names : List Str) (dan rate : List Num) (sx : Str) (count : Int),
      es.find? (fun e => decide (e.tag = "UN".toList)) = some un ∧
      ["n0", "n1", "n2", "n3"].map (fun a => un.get a.toList) = names.map Except.ok ∧
      (un.get "dan".toList >>= numberList) = .ok dan ∧ (un.get "rate".toList >>= numberList) = .ok rate ∧
      un.get "sx".toList = .ok sx ∧ r.gameType.playerCount = .ok count ∧
      r.players.length = min (min 4 count.toNat) (min dan.length (min rate.length (splitOn ',' sx).length)) ∧
      ∀ (k : Nat) p, r.players[k]? = some p → p.index = k ∧ names[k]? = some p.nameEncoded ∧
        dan[k]? = some p.level ∧ rate[k]? = some p.rate ∧ (splitOn ',' sx)[k]? = some p.sex := by
  obtain ⟨hev, _, hch⟩ := C37_record es r h
  have hcat := (C36_read_all [true, false] (fun e : TEvent => isGameInit e.ev) r.events).concat
  rw [show groupLists [true, false] (fun e : TEvent => isGameInit e.ev) r.events = recordChunks r.events from rfl, hch,
    List.flatten_cons] at hcat
  unfold TRecord.make at h
  rw [bind_ok] at h
  obtain ⟨events, h1, h⟩ := h
  split at h
  · cases h
  · next head chunks hc =>
    simp only [bind_ok] at h
    obtain ⟨_, _, _, _, gt, _, count, hcount, n0, m0, n1, m1, n2, m2, n3, m3, dan', md, dan, hd, rate', mr, rate, hr, sx, ms,
      games, hg, h⟩ := h
    split at h
    · cases h
    · simp only [bind_ok, pure_ok] at h
      obtain ⟨_, _, _, _, rfl⟩ := h
      simp only at hcat hev
      obtain ⟨un, f0, g0⟩ := metaAttr_find m0 (List.map (fun x => x.events) games).flatten
      rw [hcat, hev] at f0
      have same : ∀ {attr : String} {v : Str}, metaAttr head "UN" attr = .ok v → un.get attr.toList = .ok v := by
        intro attr v hv
        obtain ⟨u, f, g⟩ := metaAttr_find hv (List.map (fun x => x.events) games).flatten
        rw [hcat, hev, f0] at f
        cases f
        exact g
      obtain ⟨hl, hp⟩ := makePlayers_get 0 [n0, n1, n2, n3] dan rate (splitOn ',' sx) count.toNat
      refine ⟨un, [n0, n1, n2, n3], dan, rate, sx, count, f0, ?_, ?_, ?_, same ms, hcount, ?_, ?_⟩
      · simp only [List.map_cons, List.map_nil, same m0, same m1, same m2, same m3]
      · rw [same md]; exact hd
      · rw [same mr]; exact hr
      · simp only [hl, List.length_cons, List.length_nil]; omega
      · intro k p hk
        simpa using hp k p hk

/-- **C73.** For a record that was read, no run writes a file twice. -/
theorem C73_distinct (iter : List Int → List Int) (decode : Str → Str) (semi : Bool) (name : TPlayer → Str) (es : List Event)
    (record : TRecord) (hr : TRecord.make es = .ok record) (url input : Str) :
    ((mainRun iter decode semi name record url input).1.map Prod.fst).Nodup := by
  obtain ⟨_, _, _, _, _, _, _, _, _, _, _, _, _, hix⟩ := C75_players es record hr
  obtain ⟨_, _, hf⟩ := C73_run iter decode semi name record url input _ _ rfl
  have hpl : ∀ (i j : Nat) p q, (plannedPlayers input record.players)[i]? = some p →
      (plannedPlayers input record.players)[j]? = some q → p.index = q.index → i = j := by
    intro i j p q hp hq e
    by_cases hk : ∃ k, 1 ≤ k ∧ k ≤ record.players.length ∧ Writes input k
    · obtain ⟨k, k1, k2, k3⟩ := hk
      rw [C73_pick input record.players k k1 _ (List.getElem?_eq_getElem (by omega)) k3] at hp hq
      have : ∀ (a : TPlayer) (i : Nat) b, [a][i]? = some b → i = 0 := by
        intro a i b h
        have := (List.getElem?_eq_some_iff.1 h).1
        simpa using this
      rw [this _ _ _ hp, this _ _ _ hq]
    · rw [C73_all input record.players (fun k a b c => hk ⟨k, a, b, c⟩)] at hp hq
      rw [(hix i p hp).1, (hix j q hq).1] at e
      exact e
  rw [List.nodup_iff_getElem?_ne_getElem?]
  intro i j hij hj e
  rw [List.length_map] at hj
  rw [List.getElem?_map, List.getElem?_map, List.getElem?_eq_getElem (by omega), List.getElem?_eq_getElem hj] at e
  simp only [Option.map_some, Option.some.injEq] at e
  obtain ⟨p, id, p1, _, _, _, p2, p3⟩ := hf i _ _ (List.getElem?_eq_getElem (Nat.lt_trans hij hj))
  obtain ⟨q, id', q1, _, _, _, q2, q3⟩ := hf j _ _ (List.getElem?_eq_getElem hj)
  rw [p2] at q2
  cases q2
  simp only [List.get_eq_getElem] at p3 q3
  rw [p3, q3] at e
  have := hpl i j p q p1 q1 (C73_one_record _ _ _ _ _ e).2
  omega

example : (TRecord.make sampleRecord).map (fun r => r.players.map (fun p => (p.index, p.nameEncoded))) =
    .ok [(0, "a".toList), (1, "b".toList), (2, "c".toList), (3, "d".toList)] := by decide +kernel

/-! ### The tiles shown -/

/-- **C74.** The tile list of the page names each of the 37 tiles once, and these are the pictures there are. -/
theorem C74_pictures : shownTiles.Nodup ∧ shownTiles.length = 37 ∧ ∀ s, s ∈ shownTiles ↔ s ∈ pictures := by
  refine ⟨by decide +kernel, by decide +kernel, ?_⟩
  have : shownTiles.Perm pictures := by decide +kernel
  exact fun s => this.mem_iff

/-- **C74.** Every tile a report shows has a picture. -/
theorem C74_shown (iter : List Int → List Int) (hi : ∀ l, (iter l).Perm l) (player : Fin 4) (e : Event)
    (hand : List Int) (hn : ∀ n ∈ hand, IsTileNumber n) (inv : List InvElem) (melds : List Meld)
    (hm : ∀ m ∈ melds, ∀ n ∈ m.selfTiles ++ m.borrowedTiles, IsTileNumber n) (r : RoundReasoning)
    (h : discardReasoning iter player e hand inv melds = .ok r) (n : Int) (he : playerDiscard player e = some n)
    (hh : n ∈ hand) : ∀ s ∈ shownBy r, s ∈ pictures := by
  intro s hs
  rw [← C74_pictures.2.2]
  obtain ⟨a, best, more, m, tile, items, your, rate, strs, ha, hex, hp, ht, hit, hy, _, hstr, rfl⟩ := discardReasoning_inv h
  rw [he] at hp
  cases hp
  rw [(tileOf_spec (hn n hh)).1] at ht
  cases ht
  obtain ⟨y0, y1, _⟩ := your_choice hi hn ha hh hit hy
  have hmi := merged_items hi hn ha
  obtain ⟨tiles, lists, _, htiles, _, hhand, _⟩ := analyse_inv ha
  obtain ⟨t1, t2, _⟩ := analyse_hand hi hn
  rw [t1] at htiles
  cases htiles
  have hne : a.merged ≠ [] := by
    intro hm'
    rw [(expected_eq a.merged).1 hm'] at hex
    cases hex
  rw [(expected_eq a.merged).2 hne, Except.ok.injEq] at hex
  have item : ∀ x : RItem, ItemOK a.invisible x → ∀ s ∈ x.norm.discard ++ x.norm.useful, s ∈ shownTiles := by
    intro x hx s hs
    simp only [RItem.norm, List.mem_append, List.mem_cons, List.not_mem_nil, or_false, List.mem_map] at hs
    rcases hs with rfl | ⟨t, ht, rfl⟩
    · exact real_str hx.1
    · exact real_str (hx.2.1 t ((pySorted_perm x.useful).mem_iff.1 ht))
  simp only [shownBy, List.mem_append, List.mem_flatten, List.mem_flatMap, List.mem_cons] at hs
  rcases hs with (hs | ⟨l, hl, hs⟩) | ⟨x, hx, hs⟩
  · obtain ⟨t, ht, rfl⟩ := List.mem_map.1 hs
    rw [hhand] at ht
    unfold TileSet.tiles at ht
    obtain ⟨p, hp, hpt⟩ := List.mem_flatMap.1 ht
    rw [List.eq_of_mem_replicate hpt]
    exact real_str ((HandOK.reSort' t2).2.1 p hp)
  · obtain ⟨m, hm', e1⟩ := mapM_inv _ hstr l hl
    unfold tileNames at e1
    obtain ⟨z, hz, e2⟩ := mapM_inv _ e1 s hs
    have hz' := tileOf_spec (hm m hm' z hz)
    rw [hz'.1] at e2
    cases e2
    exact real_str hz'.2.1
  · have hs' : s ∈ x.discard ++ x.useful := by simpa using hs
    have : ∃ y : RItem, ItemOK a.invisible y ∧ x = y.norm := by
      rcases hx with (rfl | hx) | hx
      · exact ⟨your, y1, rfl⟩
      · obtain ⟨y, hy, rfl⟩ := List.mem_map.1 hx
        rw [← hex] at hy
        exact ⟨y, (hmi y (List.mem_filter.1 hy).1).1, rfl⟩
      · obtain ⟨y, hy, rfl⟩ := List.mem_map.1 hx
        exact ⟨y, (hmi y ((pySorted_perm a.merged).mem_iff.1 hy)).1, rfl⟩
    obtain ⟨y, hy, rfl⟩ := this
    exact item y hy s hs'

/-- **C74.** The hand shown holds, in order of suit and number, as many tiles of each kind as the hand has; without red
    fives it is the hand itself, and every red five shown is in the hand.  The melds shown are the tiles of the melds. -/
theorem C74_hand (iter : List Int → List Int) (hi : ∀ l, (iter l).Perm l) (player : Fin 4) (e : Event)
    (hand : List Int) (hn : ∀ n ∈ hand, IsTileNumber n) (inv : List InvElem) (melds : List Meld) (r : RoundReasoning)
    (h : discardReasoning iter player e hand inv melds = .ok r) :
    (∃ tiles : List Tile, r.hand = tiles.map Tile.str ∧ tiles.Pairwise (fun a b => ¬ Kind.lt b.view a.view) ∧
      (∀ k, ((tiles.map Tile.view).count k : Int) = heldKinds hand k) ∧
      (NoRedFives hand → ∀ t ∈ tiles, t.aka = false) ∧
      ∀ t ∈ tiles, t.aka = true → ∃ n ∈ hand, tileFromTenhou n = .ok t) ∧
    r.melds.length = melds.length ∧ ∀ (k : Nat) m, melds[k]? = some m →
      ∃ names, r.melds[k]? = some names ∧ tileNames (m.selfTiles ++ m.borrowedTiles) = .ok names := by
  obtain ⟨a, best, more, m, tile, items, your, rate, strs, ha, hex, hp, ht, hit, hy, _, hstr, rfl⟩ := discardReasoning_inv h
  obtain ⟨tiles, lists, _, htiles, _, hhand, _⟩ := analyse_inv ha
  obtain ⟨t1, t2, t3, t4, _⟩ := analyse_hand hi hn
  rw [t1] at htiles
  cases htiles
  have hok := HandOK.reSort' t2
  refine ⟨⟨TileSet.tiles a.hand, rfl, ?_, ?_, ?_, ?_⟩, (mapM_get hstr).1, ?_⟩
  · rw [hhand]
    have hs := reSort_sorted t2.1
    generalize reSort (Counter.ofIter ((iter hand).map tileOf)) = c at hs
    unfold TileSet.tiles
    unfold Sorted Counter.keys at hs
    induction c with
    | nil => simp
    | cons x c ih =>
      rw [List.map_cons, List.pairwise_cons] at hs
      rw [List.flatMap_cons, List.pairwise_append]
      refine ⟨?_, ih hs.2, ?_⟩
      · rw [List.pairwise_replicate]
        exact Or.inr (fun h => Kind.lt_ne h rfl)
      · intro s hs' t ht' hlt
        rw [List.eq_of_mem_replicate hs'] at hlt
        obtain ⟨y, hy, hy'⟩ := List.mem_flatMap.1 ht'
        rw [List.eq_of_mem_replicate hy'] at hlt
        have h1 := hs.1 y.1.view (List.mem_map.2 ⟨y, hy, rfl⟩)
        exact Kind.lt_ne (Kind.lt_trans h1 hlt) rfl
  · intro k
    rw [hhand, count_flatMap_replicate _ hok.1, ← t3, ← content_reSort' t2]
    have : 0 ≤ content (reSort (Counter.ofIter ((iter hand).map tileOf))) k := by
      rw [content_reSort' t2, t3]
      unfold heldKinds
      omega
    unfold content at this ⊢
    omega
  · intro hr t ht'
    rw [hhand] at ht'
    obtain ⟨y, hy, hy'⟩ := List.mem_flatMap.1 ht'
    rw [List.eq_of_mem_replicate hy']
    exact FromHand.plain hn hr (keysIn_reSort t4 y hy)
  · intro t ht' hat
    rw [hhand] at ht'
    obtain ⟨y, hy, hy'⟩ := List.mem_flatMap.1 ht'
    rw [List.eq_of_mem_replicate hy'] at hat ⊢
    obtain ⟨n, hm, e⟩ := keysIn_reSort t4 y hy hat
    exact ⟨n, hm, by rw [← e]; exact (tileOf_spec (hn n hm)).1⟩
  · intro k m hm
    exact (mapM_get hstr).2 k m hm

/-- instance: 5p and an east wind beside four melds -/
example : (discardReasoning id 0 (Move.discard 0 53).event [108, 53] (allNumbers.filter (fun x => decide (x ≠ .num 109)))
      openMelds).toOption.map (fun r => (r.hand, r.melds.length, (shownBy r).length)) =
    some (["5p".toList, "1z".toList], 4, 22) := by decide +kernel

/-- **C74.** With red fives the hand shown can differ from the hand: a plain and a red 5p are shown as two plain ones. -/
theorem C74_red_hidden : ∃ hand melds r, discardReasoning id 0 (Move.discard 0 108).event hand allNumbers melds = .ok r ∧
    hand = [53, 52, 108, 112, 116] ∧ r.hand = ["5p", "5p", "1z", "2z", "3z"].map String.toList := by
  have : ((discardReasoning id 0 (Move.discard 0 108).event [53, 52, 108, 112, 116] allNumbers (openMelds.take 3)).toOption.map
    (fun r => r.hand)) = some (["5p", "5p", "1z", "2z", "3z"].map String.toList) := by decide +kernel
  cases h : discardReasoning id 0 (Move.discard 0 108).event [53, 52, 108, 112, 116] allNumbers (openMelds.take 3) with
  | error x => rw [h] at this; cases this
  | ok r =>
    rw [h] at this
    exact ⟨_, _, r, h, rfl, by simpa [Except.toOption] using this⟩

end Verif.Props
