import Mathlib.Data.List.Dedup
import Verif.Props.Frame
import Verif.Proofs.StateCsv

/-! # Tables of states are read back (C89) -/
namespace Verif.Props
open Verif.Py Verif.Model Verif.Spec Verif.Proofs

/-- **C89.** The label of every key of a state is read back as that key. -/
theorem C89_label (k : Key) (h : StateKey k) : replaceEnumValues k.label = .ok (.key k) := label_key h

/-- **C89.** Different keys have different labels. -/
theorem C89_label_inj (k k' : Key) (h : StateKey k) (h' : StateKey k') (e : k.label = k'.label) : k = k' := by
  have := (label_key h).symm.trans ((congrArg _ e).trans (label_key h'))
  cases this
  rfl

/-- **C89.** What the labels say: seats 0 to 3 are `first`, `second`, `third` and `forth`, a scope has its name, a property the name
    of its class and its own, and a text stands for itself. -/
theorem C89_names :
    (∀ i : Fin 4, (Key.player i).label = ["PlayerId.first", "PlayerId.second", "PlayerId.third", "PlayerId.forth"][i].toList) ∧
    ((Key.scope .game).label = "ViewScope.game".toList ∧ (Key.scope .player).label = "ViewScope.player".toList ∧
      (Key.scope .record).label = "ViewScope.record".toList) ∧
    (∀ n ∈ ["player_count", "play_level", "has_aka_dora", "speed_up", "allow_tanyao_open", "play_wind_count",
        "show_discard_shadow", "seed", "using_tiles"],
      (Key.prop (Verif.Model.view .record n)).label = "RecordView.".toList ++ n.toList) ∧
    (∀ n ∈ ["wind", "round", "sub_round", "dora_indicators", "richii_remain_scores", "dealer", "nobody_win", "extra_reason"],
      (Key.prop (Verif.Model.view .game n)).label = "GameView.".toList ++ n.toList) ∧
    (∀ n ∈ ["name", "level", "extra_level", "hand", "in_richii", "discard_tiles", "discard_from_hand", "fixed_meld",
        "meld_public_tiles", "score", "bonus_tiles", "round", "disconnected", "is_dealer", "is_win", "is_self_win",
        "is_discard_lose_game", "faans", "rank", "final_score", "final_point"],
      (Key.prop (Verif.Model.view .player n)).label = "PlayerView.".toList ++ n.toList) ∧
    ∀ s, (Key.text s).label = s := by
  refine ⟨by decide +kernel, ⟨by decide +kernel, by decide +kernel, by decide +kernel⟩, by decide +kernel, by decide +kernel,
    by decide +kernel, fun s => rfl⟩

/-- **C89.** A label with exactly one dot whose first part is no class of the format, or whose second part is no member of
    a view class, raises `KeyError`; no label raises anything else. -/
theorem C89_unknown (s : Str) :
    (∀ x, replaceEnumValues s = .error x → x = .keyError ∧ s.count '.' = 1) ∧
    (∀ cls name, '.' ∉ cls → '.' ∉ name → s = cls ++ '.' :: name →
      (cls ∉ ["PlayerId", "ViewScope", "GameView", "PlayerView", "RecordView", "Update", "EventType", "ViewType"].map String.toList →
        replaceEnumValues s = .error .keyError) ∧
      (∀ sc : Scope, cls = sc.className → name ∉ (propertyNames sc).map String.toList →
        ("type__".toList).isPrefixOf name = false → replaceEnumValues s = .error .keyError)) := by
  constructor
  · intro x hx
    constructor
    · unfold replaceEnumValues at hx
      split at hx
      · exact enumMember_err hx
      · cases hx
    · apply Classical.byContradiction
      intro hne
      rw [label_text hne] at hx
      cases hx
  · intro cls name h1 h2 e
    subst e
    have hr : replaceEnumValues (cls ++ '.' :: name) = enumMember cls name := by
      unfold replaceEnumValues; rw [split_two h1 h2]
    rw [hr]
    refine ⟨enumMember_cls, ?_⟩
    intro sc hc hn ht
    subst hc
    exact enumMember_name hn ht

/-- the rows of a translated record, one by one -/
theorem state_rows {showVal : Val → Str} {left : Ctx → TEvent → Ctx} {ctx : Ctx} {events : List TEvent}
    (hseat : ∀ t ∈ events, Seated t.ev) {cs : List Cmd} (h : (toCommands left false ctx events).2 = .ok cs)
    {commandRows : List Rec} {stateRows : List (List (List Key × Str))}
    (hp : parseDataframes showVal left ctx events = .ok (commandRows, stateRows)) :
    stateRows.length = cs.length ∧ ∀ k, k < cs.length → ∃ c row s, cs[k]? = some c ∧ stateRows[k]? = some row ∧
      interpretAll [] (cs.take (k + 1)) = .ok s ∧ Sound s ∧ (∀ sub v x, s.lookup (sub, v) = some x → SeatOf sub v ∧ IsProperty v) ∧
      (row.map Prod.fst).Nodup ∧
      ∀ p t, (p, t) ∈ row ↔
        (p = [.text "global".toList, .text "time".toList, .text "timestamp".toList] ∧ t = jsonDumps (timeLeaf c.timestamp)) ∨
        (∃ sub v x kind, s.lookup (sub, v) = some x ∧ p = placeOf sub v ∧ HasKind v kind ∧ t = cellText showVal kind x) := by
  obtain ⟨s', h'⟩ := carried_all left false events hseat ctx.clear sound_nil cs h
  have hf := carried_fines h'
  have haddr : ∀ c ∈ cs, Addressed c := fun c hc => (hf c hc).addressed
  obtain ⟨e1, e2⟩ := carried_run h'
  have hst := C69_states showVal false cs haddr
  have hrows : (execute false cs).1.mapM (TD.flatten showVal) = .ok stateRows := by
    unfold parseDataframes at hp
    rw [h] at hp
    simp only [bind, Except.bind, e1, pure, Except.pure] at hp
    split at hp
    · cases hp
    · split at hp
      · cases hp
      · rename_i heq
        cases hp
        exact heq
  obtain ⟨l2, g2⟩ := mapM_get hrows
  refine ⟨l2.trans e2, ?_⟩
  intro k hk
  have hkl : k < (execute false cs).1.length := by rw [e2]; exact hk
  have hy := List.getElem?_eq_getElem hkl
  obtain ⟨row, hrow, hfl⟩ := g2 k _ hy
  obtain ⟨c, s, row', hc', hs, hfl', hnd, hiff⟩ := hst k _ hy
  rw [hfl] at hfl'
  cases hfl'
  obtain ⟨sk, a, b, _⟩ := carried_take sound_nil h' (k + 1)
  rw [hs] at a
  cases a
  have hg := interpretAll_keys (cs.take (k + 1)) (fun c h => haddr c (List.mem_of_mem_take h)) [] s
    (fun k x h => by cases h) hs
  have hpr := interpretAll_props (cs.take (k + 1)) (fun c h => haddr c (List.mem_of_mem_take h)) [] s
    (fun k x h => by cases h) hs
  exact ⟨c, row, s, hc', hrow, hs, b, fun sub v x hx => ⟨hg _ _ hx, hpr _ _ hx⟩, hnd, hiff⟩

/-- **C89.** The table of states of a record, written to a file and read again: reading succeeds, every column has its
    three keys again, there is a column for every property that ever has a value, and its cell in every row is the value
    the property has after that command, `None` if it has none.  A text property gives the text of the cell instead. -/
theorem C89_table (showVal : Val → Str) (left : Ctx → TEvent → Ctx) (ctx : Ctx) (events : List TEvent)
    (hseat : ∀ t ∈ events, Seated t.ev) (cs : List Cmd) (h : (toCommands left false ctx events).2 = .ok cs)
    (commandRows : List Rec) (stateRows : List (List (List Key × Str)))
    (hp : parseDataframes showVal left ctx events = .ok (commandRows, stateRows))
    (places : List (List Key)) (cols : List (List Str × List Cell)) (ht : TableOf stateRows places cols) :
    ∃ out, readStates cols = .ok out ∧ out.map Prod.fst = places.map (fun p => p.map Label.key) ∧
      (∀ p ∈ places, p.length = 3) ∧ (∀ o ∈ out, o.2.length = cs.length) ∧
      ∀ (k : Nat) s, k < cs.length → interpretAll [] (cs.take (k + 1)) = .ok s →
        (∀ sub v x, s.lookup (sub, v) = some x → placeOf sub v ∈ places) ∧
        ∀ (i : Nat) p col o, places[i]? = some p → cols[i]? = some col → out[i]? = some o →
          (p = [.text "global".toList, .text "time".toList, .text "timestamp".toList] →
            o.2[k]? = (col.2[k]?).map Got.cell) ∧
          ∀ sub v kind, SeatOf sub v → HasKind v kind → p = placeOf sub v →
            (kind ≠ .text → o.2[k]? = some (.val ((s.lookup (sub, v)).getD .none))) ∧
            (kind = .text → ∃ c, col.2[k]? = some c ∧ o.2[k]? = some (.val (.str c.str)) ∧
              (s.lookup (sub, v) = none → c = .nan) ∧
              ∀ x, s.lookup (sub, v) = some x → TableCell (cellText showVal .text x) c) := by
  obtain ⟨hlen, hrows⟩ := state_rows hseat h hp
  have hplace : ∀ p ∈ places, p = [.text "global".toList, .text "time".toList, .text "timestamp".toList] ∨
      ∃ sub v kind, SeatOf sub v ∧ HasKind v kind ∧ p = placeOf sub v := by
    intro p hm
    obtain ⟨row, hr, hm⟩ := (ht.covers p).1 hm
    obtain ⟨⟨p', t⟩, he, e⟩ := List.mem_map.1 hm
    cases e
    obtain ⟨k, hk⟩ := List.getElem?_of_mem hr
    have hkl : k < cs.length := by rw [← hlen]; exact (List.getElem?_eq_some_iff.1 hk).1
    obtain ⟨c, row', s, _, hr', _, _, hok, _, hiff⟩ := hrows k hkl
    rw [hk] at hr'; cases hr'
    rcases (hiff p' t).1 he with ⟨e, _⟩ | ⟨sub, v, x, kind, hs, e, hkd, _⟩
    · exact .inl e
    · exact .inr ⟨sub, v, kind, (hok _ _ _ hs).1, hkd, e⟩
  have hkeys : ∀ p ∈ places, ∀ k ∈ p, StateKey k := by
    intro p hm
    rcases hplace p hm with rfl | ⟨sub, v, kind, _, hkd, rfl⟩
    · exact stamp_keys
    · exact place_keys sub ⟨kind, hkd⟩
  have hlc : cols.length = places.length := by
    have := congrArg List.length ht.labels
    simpa using this
  obtain ⟨named, hn1, hn2⟩ := named_cols cols places ht.labels hkeys
  -- the cells of one column
  have hcell : ∀ (i : Nat) p col, places[i]? = some p → cols[i]? = some col → ∀ (k : Nat) s c, k < cs.length →
      interpretAll [] (cs.take (k + 1)) = .ok s → col.2[k]? = some c → ∀ sub v kind, SeatOf sub v → HasKind v kind →
      p = placeOf sub v → Sound s ∧ (s.lookup (sub, v) = none → c = .nan) ∧
        ∀ x, s.lookup (sub, v) = some x → TableCell (cellText showVal kind x) c := by
    intro i p col hpi hci k s c hk hs hc sub v kind hseatv hkd e
    obtain ⟨_, row, s2, _, hrow, hs2, hsound, hok, _, hiff⟩ := hrows k hk
    rw [hs] at hs2; cases hs2
    obtain ⟨c1, c2⟩ := ht.cells i k p col row c hpi hci hrow hc
    refine ⟨hsound, ?_, ?_⟩
    · intro hnone
      apply c2
      intro hm
      obtain ⟨⟨p', t⟩, he, ep⟩ := List.mem_map.1 hm
      simp only at ep
      rw [ep, e] at he
      rcases (hiff _ t).1 he with ⟨e', _⟩ | ⟨sub', v', x, kind', hs', e', _, _⟩
      · have := congrArg lastProp e'
        rw [lastProp_place] at this
        cases this
      · have := place_inj hseatv (hok _ _ _ hs').1 e'
        cases this
        rw [hnone] at hs'; cases hs'
    · intro x hx
      apply c1
      rw [hiff]
      exact .inr ⟨sub, v, x, kind, hx, e, hkd, rfl⟩
  -- every column can be read
  have hread : ∀ c ∈ named, ∃ b, (do pure (c.1, ← stateSeriesApply c.1 c.2) : Except PyErr (List Label × List Got)) = .ok b := by
    intro c hc
    obtain ⟨i, hi⟩ := List.getElem?_of_mem hc
    obtain ⟨p, col, hpi, hci, e1⟩ := hn2 i c hi
    subst e1
    have hmem := List.mem_of_getElem? hpi
    rcases hplace p hmem with rfl | ⟨sub, v, kind, hseatv, hkd, rfl⟩
    · rw [series_other rfl]; exact ⟨_, rfl⟩
    · rw [series_prop (lastProp_place sub v)]
      obtain ⟨r, hr⟩ := mapM_total (f := fun c => (do pure (.val (← fromStr v c)) : Except PyErr Got)) (l := col.2) (by
        intro x hx
        obtain ⟨k, hk⟩ := List.getElem?_of_mem hx
        by_cases ht' : kind = .text
        · subst ht'; rw [cell_text hkd]; exact ⟨_, rfl⟩
        · have hkl : k < cs.length := by
            rw [← hlen, ← ht.heights col (List.mem_of_getElem? hci)]
            exact (List.getElem?_eq_some_iff.1 hk).1
          obtain ⟨_, _, s, _, _, hs, _⟩ := hrows k hkl
          obtain ⟨hsound, n1, n2⟩ := hcell i _ col hpi hci k s x hkl hs hk sub v kind hseatv hkd rfl
          cases hl : s.lookup (sub, v) with
          | none => rw [n1 hl, cell_none hkd ht']; exact ⟨_, rfl⟩
          | some y =>
            have := n2 y hl
            rw [cellText_ne ht'] at this
            rw [cell_value hkd ht' (hsound.2.2 _ _ hl) rfl this]
            exact ⟨_, rfl⟩)
      rw [hr]
      exact ⟨_, rfl⟩
  obtain ⟨out, hout⟩ := mapM_total hread
  obtain ⟨o1, o2⟩ := mapM_get hout
  obtain ⟨hnl, hng⟩ := mapM_get hn1
  have hser : ∀ (i : Nat) p col o, places[i]? = some p → cols[i]? = some col → out[i]? = some o →
      o.1 = p.map Label.key ∧ stateSeriesApply (p.map Label.key) col.2 = .ok o.2 := by
    intro i p col o hpi hci hoi
    obtain ⟨b, hb, _⟩ := hng i col hci
    obtain ⟨p', col', hp', hc', e⟩ := hn2 i b hb
    rw [hpi] at hp'; cases hp'
    rw [hci] at hc'; cases hc'
    subst e
    obtain ⟨o', ho', he⟩ := o2 i _ hb
    rw [hoi] at ho'; cases ho'
    simp only [bind_ok, pure_ok] at he
    obtain ⟨g, hg, rfl⟩ := he
    exact ⟨rfl, hg⟩
  have hall : ∀ (i : Nat) o, out[i]? = some o → ∃ p col, places[i]? = some p ∧ cols[i]? = some col := by
    intro i o hoi
    have hil : i < cols.length := by
      have := (List.getElem?_eq_some_iff.1 hoi).1
      omega
    have hil' : i < places.length := by omega
    exact ⟨_, _, List.getElem?_eq_getElem hil', List.getElem?_eq_getElem hil⟩
  have hout_len : out.length = places.length := by omega
  have hgot : ∀ (p : List Key) v col o, lastProp p = some v → stateSeriesApply (p.map Label.key) col = .ok o →
      o.length = col.length ∧ ∀ (k : Nat) c, col[k]? = some c → ∃ x, fromStr v c = .ok x ∧ o[k]? = some (.val x) := by
    intro p v col o hlp hs
    rw [series_prop hlp] at hs
    obtain ⟨a, b⟩ := mapM_get hs
    refine ⟨a, fun k c hc => ?_⟩
    obtain ⟨g, hg, he⟩ := b k c hc
    simp only [bind_ok, pure_ok] at he
    obtain ⟨x, hx, rfl⟩ := he
    exact ⟨x, hx, hg⟩
  refine ⟨out, ?_, ?_, ?_, ?_, ?_⟩
  · unfold readStates
    rw [hn1]
    exact hout
  · apply List.ext_getElem?
    intro i
    rw [List.getElem?_map, List.getElem?_map]
    cases ho : out[i]? with
    | none =>
      have : places[i]? = none := by
        rw [List.getElem?_eq_none_iff] at ho ⊢
        omega
      rw [this]; rfl
    | some o =>
      obtain ⟨p, col, hpi, hci⟩ := hall i o ho
      rw [hpi]
      show some o.1 = some (p.map Label.key)
      rw [(hser i p col o hpi hci ho).1]
  · intro p hm
    rcases hplace p hm with rfl | ⟨sub, v, kind, _, hkd, rfl⟩
    · rfl
    · exact placeOf_len sub v
  · intro o ho
    obtain ⟨i, hi⟩ := List.getElem?_of_mem ho
    obtain ⟨p, col, hpi, hci⟩ := hall i o hi
    obtain ⟨_, hs⟩ := hser i p col o hpi hci hi
    have hh := ht.heights col (List.mem_of_getElem? hci)
    rcases hplace p (List.mem_of_getElem? hpi) with rfl | ⟨sub, v, kind, _, hkd, rfl⟩
    · rw [series_other rfl] at hs
      injection hs with hs
      rw [← hs]
      simp [hh, hlen]
    · rw [(hgot _ v col.2 o.2 (lastProp_place sub v) hs).1, hh, hlen]
  · intro k s hk hs
    obtain ⟨_, row, s2, _, hrow, hs2, hsound, hok, _, hiff⟩ := hrows k hk
    rw [hs] at hs2; cases hs2
    constructor
    · intro sub v x hx
      obtain ⟨kd, hkd⟩ := (hok _ _ _ hx).2
      rw [ht.covers]
      exact ⟨row, List.mem_of_getElem? hrow, List.mem_map.2 ⟨_, (hiff _ _).2 (.inr ⟨sub, v, x, kd, hx, rfl, hkd, rfl⟩), rfl⟩⟩
    · intro i p col o hpi hci hoi
      obtain ⟨_, hse⟩ := hser i p col o hpi hci hoi
      have hh := ht.heights col (List.mem_of_getElem? hci)
      have hkc : k < col.2.length := by rw [hh, hlen]; exact hk
      have hck := List.getElem?_eq_getElem hkc
      constructor
      · rintro rfl
        rw [series_other rfl] at hse
        injection hse with hse
        rw [← hse, List.getElem?_map]
      · intro sub v kind hseatv hkd e
        obtain ⟨_, n1, n2⟩ := hcell i p col hpi hci k s _ hk hs hck sub v kind hseatv hkd e
        subst e
        obtain ⟨x, hx, hg⟩ := (hgot _ v col.2 o.2 (lastProp_place sub v) hse).2 k _ hck
        constructor
        · intro ht'
          rw [hg]
          cases hl : s.lookup (sub, v) with
          | none =>
            rw [n1 hl, cell_none hkd ht'] at hx
            cases hx; rfl
          | some y =>
            have hc := n2 y hl
            rw [cellText_ne ht'] at hc
            rw [cell_value hkd ht' (hsound.2.2 _ _ hl) rfl hc] at hx
            cases hx; rfl
        · rintro rfl
          refine ⟨_, hck, ?_, n1, n2⟩
          rw [cell_text hkd] at hx
          cases hx
          exact hg

/-- every list of rows has such a table: the one with a column for every place -/
theorem table_exists (rows : List (List (List Key × Str))) (hnd : ∀ row ∈ rows, (row.map Prod.fst).Nodup) :
    ∃ places cols, places.Nodup ∧ TableOf rows places cols := by
  refine ⟨(rows.flatMap (fun r => r.map Prod.fst)).dedup,
    ((rows.flatMap (fun r => r.map Prod.fst)).dedup).map (fun p => (p.map Key.label,
      rows.map (fun row => match row.lookup p with | some t => Cell.text t | none => .nan))), List.nodup_dedup _, ?_, ?_, ?_, ?_⟩
  · intro p
    rw [List.mem_dedup, List.mem_flatMap]
  · rw [List.map_map]; rfl
  · intro col hc
    obtain ⟨p, _, rfl⟩ := List.mem_map.1 hc
    simp
  · intro i k p col row c hp hc hr hk
    rw [List.getElem?_map, hp] at hc
    cases hc
    simp only [List.getElem?_map, hr, Option.map_some, Option.some.injEq] at hk
    subst hk
    constructor
    · intro t ht
      rw [lookup_nodup (hnd row (List.mem_of_getElem? hr)) ht]
      exact .text t
    · intro hm
      rw [lookup_absent hm]

/-- the whole game of C70 has a table of 132 rows -/
example (showVal : Val → Str) : ∃ cs commandRows stateRows places cols,
    (toCommands (fun c _ => c) false {} sampleTable).2 = .ok cs ∧ stateRows.length = 132 ∧
    parseDataframes showVal (fun c _ => c) {} sampleTable = .ok (commandRows, stateRows) ∧
    TableOf stateRows places cols := by
  have hseat : ∀ t ∈ sampleTable, Seated t.ev := by
    have h : ∀ t ∈ sampleTable, seatedB t.ev = true := by decide +kernel
    exact fun t ht => seated_of_B (h t ht)
  have hl := sampleTable_length
  cases hc : (toCommands (fun c _ => c) false {} sampleTable).2 with
  | error e => rw [hc] at hl; cases hl
  | ok cs =>
    rw [hc] at hl
    have hl : cs.length = 132 := by injection hl
    obtain ⟨cr, sr, hp, h1, h2, _⟩ := (C70_frames showVal _ {} sampleTable hseat).2 cs hc
    obtain ⟨_, hr⟩ := state_rows hseat hc hp
    obtain ⟨places, cols, _, ht⟩ := table_exists sr (by
      intro row hm
      obtain ⟨k, hk⟩ := List.getElem?_of_mem hm
      obtain ⟨_, row', _, _, hr', _, _, _, hn, _⟩ := hr k (by rw [← h2]; exact (List.getElem?_eq_some_iff.1 hk).1)
      rw [hk] at hr'
      cases hr'
      exact hn)
    exact ⟨cs, cr, sr, places, cols, rfl, by rw [h2, hl], hp, ht⟩

/-- a text property without a value is read as the text `nan` -/
example : (readStates [(["PlayerView.name".toList], [.nan, .text "A".toList])]).toOption.map (fun l => l.map (fun c => (c.1, c.2.length))) =
    some [([.key (.prop (view .player "name"))], 2)] := by decide +kernel

example : fromStr (view .player "name") .nan = .ok (.str "nan".toList) := by decide +kernel

end Verif.Props
