import Verif.Proofs.Flatten
import Verif.Props.Executor

/-!
C69: dropping keys and the flat rows of states.
-/
namespace Verif.Props
open Verif.Py Verif.Model Verif.Spec Verif.Proofs

/-- **C69.** `root[k1]...[kn].drop(k)` raises `KeyError` if there is no such key; otherwise it is a root where nothing is
    left at `k1, ..., kn, k` and every path that does not lead through that place reads as in `root`. -/
theorem C69_drop (root d : TD) (hroot : root.parents = []) (ks : List Key) (h : goTo root ks = .ok d) (k : Key) :
    (reads (.node root.kids) (ks ++ [k]) = none → d.drop k = .error .keyError) ∧
    (∀ old, reads (.node root.kids) (ks ++ [k]) = some old → ∃ root', d.drop k = .ok root' ∧ root'.parents = [] ∧
      (∀ q, reads (.node root'.kids) (ks ++ k :: q) = none) ∧
      (∀ p, ¬ (ks ++ [k]) <+: p → ¬ p <+: ks → reads (.node root'.kids) p = reads (.node root.kids) p) ∧
      (∀ p, p <+: ks → ∃ x, reads (.node root'.kids) p = some (.node x))) := by
  have hd : ∀ ks root, goTo root ks = .ok d → reads (.node root.kids) (ks ++ [k]) = d.kids.lookup k := by
    intro ks
    induction ks with
    | nil =>
      intro root h
      cases h
      simp only [List.nil_append, reads]
      cases d.kids.lookup k <;> rfl
    | cons k0 ks ih =>
      intro root h
      simp only [goTo, bind_ok] at h
      obtain ⟨c, hc, h⟩ := h
      rw [← ih c h]
      unfold TD.child at hc
      split at hc
      · rename_i kids e
        cases hc
        simp only [List.cons_append, reads, e, Option.bind_some]
      · cases hc
      · cases hc
  obtain ⟨h1, h2⟩ := drop_reads root d hroot ks h k
  rw [hd ks root h]
  exact ⟨fun e => h1 (by rw [TD.has, e]; rfl), fun old e => h2 (by rw [TD.has, e]; rfl)⟩

/-- **C69.** `flatten` of a nested dictionary has one entry for every value in it, however deep, under the path of keys
    leading there, and nothing else; the value is written in the way of its property, or as JSON. -/
theorem C69_flatten (showVal : Val → Str) (d : TD) (hd : Dicts (.node d.kids))
    (hp : ∀ p v w, reads (.node d.kids) p = some (.leaf v) → lastProp p = some w → IsProperty w) :
    ∃ rows, d.flatten showVal = .ok rows ∧ (rows.map Prod.fst).Nodup ∧
      ∀ p t, (p, t) ∈ rows ↔ ∃ v, reads (.node d.kids) p = some (.leaf v) ∧ WrittenAs showVal (lastProp p) v t := by
  classical
  have ex : ∀ p v, reads (.node d.kids) p = some (.leaf v) →
      ∃ t, toStr showVal (lastProp p) v = .ok t ∧ ∀ t', WrittenAs showVal (lastProp p) v t' ↔ t' = t := by
    intro p v hr
    unfold WrittenAs
    cases hl : lastProp p with
    | none => exact ⟨jsonDumps v, rfl, fun t' => Iff.rfl⟩
    | some w =>
      obtain ⟨k, hk⟩ := hp p v w hr hl
      have one : ∀ k', HasKind w k' → cellText showVal k' v = cellText showVal k v := by
        intro k' hk'
        have a := toStr_kind showVal hk v
        rw [toStr_kind showVal hk' v] at a
        have a := Except.ok.inj a
        unfold cellText
        cases v <;> exact a
      refine ⟨cellText showVal k v, ?_, ?_⟩
      · rw [toStr_kind showVal hk v]
        unfold cellText
        cases v <;> rfl
      · intro t'
        constructor
        · rintro ⟨k', hk', rfl⟩; exact one k' hk'
        · rintro rfl; exact ⟨k, hk, rfl⟩
  let text : List Key → Val → Str := fun p v =>
    if h : reads (.node d.kids) p = some (.leaf v) then (ex p v h).choose else []
  have htext : ∀ p v (h : reads (.node d.kids) p = some (.leaf v)), toStr showVal (lastProp p) v = .ok (text p v) ∧
      ∀ t', WrittenAs showVal (lastProp p) v t' ↔ t' = text p v := by
    intro p v h
    have e : text p v = (ex p v h).choose := dif_pos h
    rw [e]
    exact (ex p v h).choose_spec
  refine ⟨_, flatten_texts showVal d text (fun p v h => (htext p v ((mem_flattenKids _ hd p v).1 h)).1), ?_, ?_⟩
  · rw [List.map_map]
    exact nodup_flattenKids _ hd
  · intro p t
    rw [List.mem_map]
    constructor
    · rintro ⟨⟨q, v⟩, he, e⟩
      cases e
      have := (mem_flattenKids _ hd q v).1 he
      exact ⟨v, this, ((htext q v this).2 _).2 rfl⟩
    · rintro ⟨v, hr, hw⟩
      refine ⟨(p, v), (mem_flattenKids _ hd p v).2 hr, ?_⟩
      rw [((htext p v hr).2 t).1 hw]

/-- **C69.** The row of every state an executor yields has exactly the timestamp of its command and one entry for every
    property the commands up to it have given a value: the value the interpreter has, written in the way of the
    property. -/
theorem C69_states (showVal : Val → Str) (strict : Bool) (cs : List Cmd) (hcs : ∀ c ∈ cs, Addressed c) (k : Nat) (y : TD)
    (hy : (execute strict cs).1[k]? = some y) :
    ∃ c s rows, cs[k]? = some c ∧ interpretAll [] (cs.take (k + 1)) = .ok s ∧ y.flatten showVal = .ok rows ∧
      (rows.map Prod.fst).Nodup ∧
      ∀ p t, (p, t) ∈ rows ↔
        (p = [.text "global".toList, .text "time".toList, .text "timestamp".toList] ∧ t = jsonDumps (timeLeaf c.timestamp)) ∨
        (∃ sub v x kind, s.lookup (sub, v) = some x ∧ p = placeOf sub v ∧ HasKind v kind ∧ t = cellText showVal kind x) := by
  obtain ⟨c, s, h1, h2, h3, h4⟩ := (run_from strict cs hcs initialTree [] agree_initial).2.1 k y hy
  obtain ⟨hd, hl⟩ := tidy_states strict cs hcs initialTree [] agree_initial tidy_initial k y hy
  have hg := interpretAll_keys (cs.take (k + 1)) (fun c h => hcs c (List.mem_of_mem_take h)) [] s
    (fun k x h => by cases h) h2
  have hst : lastProp stampPath = none := rfl
  obtain ⟨rows, r1, r2, r3⟩ := C69_flatten showVal y hd (by
    intro p v w hr hw
    rcases hl p v hr with rfl | ⟨sub, w', _, hi, rfl⟩
    · rw [hst] at hw; cases hw
    · rw [lastProp_place] at hw; cases hw; exact hi)
  refine ⟨c, s, rows, h1, h2, r1, r2, ?_⟩
  intro p t
  rw [r3]
  constructor
  · rintro ⟨x, hr, hw⟩
    rcases hl p x hr with rfl | ⟨sub, w, hgk, hi, rfl⟩
    · left
      rw [h3] at hr
      cases hr
      exact ⟨rfl, hw⟩
    · right
      rw [h4 sub w hgk] at hr
      rw [lastProp_place] at hw
      obtain ⟨kind, hk, rfl⟩ := hw
      cases hs : s.lookup (sub, w) with
      | none => rw [hs] at hr; cases hr
      | some x' => rw [hs] at hr; cases hr; exact ⟨sub, w, x, kind, hs, rfl, hk, rfl⟩
  · rintro (⟨rfl, rfl⟩ | ⟨sub, v, x, kind, hs, rfl, hk, rfl⟩)
    · exact ⟨_, h3, rfl⟩
    · refine ⟨x, ?_, ?_⟩
      · rw [h4 sub v (hg _ _ hs), hs]; rfl
      · rw [lastProp_place]; exact ⟨kind, hk, rfl⟩

/-- the row after a score of 250 for player 1 and the default wind -/
example : ((execute false scoreCmds).1[1]?).map (fun y => (y.flatten (fun _ => [])).toOption) =
    some (some [([.text "global".toList, .text "time".toList, .text "timestamp".toList], "1".toList),
      ([.scope .game, .text "single".toList, .prop (view .game "wind")], "0".toList),
      ([.scope .player, .player 1, .prop (view .player "score")], "250".toList)]) := by decide +kernel

/-- dropping that score again -/
example : ∃ root d, (execute false scoreCmds).1[1]? = some root ∧ root.parents = [] ∧
    goTo root [.scope .player, .player 1] = .ok d ∧
    (reads (.node root.kids) ([.scope .player, .player 1] ++ [.prop (view .player "score")])).isSome = true := by
  refine ⟨_, _, rfl, rfl, rfl, ?_⟩
  decide +kernel

end Verif.Props
