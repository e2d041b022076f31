import Verif.Proofs.Executor
import Verif.Props.Command

/-! Properties C42, C43 and C44: nested dictionaries and the executor. -/
namespace Verif.Props
open Verif.Py Verif.Model Verif.Spec Verif.Proofs

/-- **C42**: `root[k1]...[kn].set(k, t)` is a root in which `t` stands at `k1, ..., kn, k`, every path that does not
    lead through that place reads as in `root`, and the dictionaries on the way there are still dictionaries. -/
theorem C42_set (root d : TD) (hroot : root.parents = []) (ks : List Key) (h : goTo root ks = .ok d) (k : Key) (t : Tree) :
    (d.set k t).parents = [] ∧
    (∀ q, reads (.node (d.set k t).kids) (ks ++ k :: q) = reads t q) ∧
    (∀ p, ¬ (ks ++ [k]) <+: p → ¬ p <+: ks → reads (.node (d.set k t).kids) p = reads (.node root.kids) p) ∧
    (∀ p, p <+: ks → ∃ x, reads (.node (d.set k t).kids) p = some (.node x)) :=
  set_reads root d ks hroot h k t

/-- `root[k1]...[kn]` exists exactly when a dictionary stands there. -/
theorem C42_goTo (root : TD) (ks : List Key) (kids : List (Key × Tree)) :
    (∃ d, goTo root ks = .ok d ∧ d.kids = kids) ↔ reads (.node root.kids) ks = some (.node kids) := by
  constructor
  · rintro ⟨d, h, rfl⟩
    exact (goTo_rebuild root d ks h []).2
  · exact goTo_of_reads root ks kids

/-- After any sequence of writes, each through the root returned by the one before, a place reads the last value
    written there, and places nobody wrote to read as at the start. -/
theorem C42_history (ws : List Write) (root root' : TD) (hroot : root.parents = [])
    (h : writeAll root ws = .ok root') (p : List Key) (hp : ∀ w ∈ ws, w.full = p ∨ Apart p w.full) :
    root'.parents = [] ∧
    reads (.node root'.kids) p =
      (match lastWrite p ws with | some v => some (.leaf v) | none => reads (.node root.kids) p) :=
  writeAll_reads ws root root' hroot h p hp

/-- `setdefault` on a missing key returns the new root, on a key that is there the dictionary itself: one level
    down these are different things. -/
theorem C42_setdefault (root d : TD) (hroot : root.parents = []) (k0 : Key) (h : goTo root [k0] = .ok d) (k : Key) (t : Tree) :
    (reads (.node root.kids) [k0, k] = none → reads (.node (d.setdefault k t).kids) [k0, k] = some t) ∧
    (∀ old, reads (.node root.kids) [k0, k] = some old → d.setdefault k t = d ∧ reads (.node d.kids) [k] = some old) := by
  have hd : reads (.node root.kids) [k0, k] = d.kids.lookup k := by
    simp only [goTo, bind_ok, TD.child] at h
    obtain ⟨c, hc, h⟩ := h
    cases h
    split at hc
    · rename_i kids e
      cases hc
      simp only [reads, e, Option.bind_some]
      cases kids.lookup k <;> rfl
    · cases hc
    · cases hc
  have hr : reads (.node d.kids) [k] = d.kids.lookup k := by
    simp only [reads]
    cases d.kids.lookup k <;> rfl
  refine ⟨fun hk => ?_, fun old hk => ?_⟩
  · rw [hd] at hk
    rw [TD.setdefault, show d.has k = false by rw [TD.has, hk]; rfl]
    exact (C42_set root d hroot [k0] h k t).2.1 []
  · rw [hd] at hk
    rw [TD.setdefault, show d.has k = true by rw [TD.has, hk]; rfl, hr, hk]
    exact ⟨rfl, rfl⟩

/-- two writes to player 1 and one to the game, starting from a fresh executor -/
example : ∃ root', writeAll initialTree
    [⟨[.scope .player, .player 1], .prop (view .player "score"), .num (.int 250)⟩,
     ⟨[.scope .game, .text "single".toList], .prop (view .game "wind"), .num (.int 0)⟩,
     ⟨[.scope .player, .player 1], .prop (view .player "score"), .num (.int 240)⟩] = .ok root' := ⟨_, rfl⟩

/-- **C43**: if every command addresses its property as the executor expects, then after every command the state
    yielded holds, for every property, the value the interpreter has for it after the same commands (and no value
    where the interpreter has none), and the timestamp of that command. -/
theorem C43_states (strict : Bool) (cs : List Cmd) (hcs : ∀ c ∈ cs, Addressed c) (k : Nat) (y : TD)
    (hy : (execute strict cs).1[k]? = some y) :
    ∃ c s, cs[k]? = some c ∧ interpretAll [] (cs.take (k + 1)) = .ok s ∧
      reads (.node y.kids) [.text "global".toList, .text "time".toList, .text "timestamp".toList] =
        some (.leaf (timeLeaf c.timestamp)) ∧
      (∀ v, v.scope = .game → reads (.node y.kids) [.scope .game, .text "single".toList, .prop v] =
        (s.lookup (Sub.all, v)).map Tree.leaf) ∧
      (∀ v, v.scope = .record → reads (.node y.kids) [.scope .record, .text "single".toList, .prop v] =
        (s.lookup (Sub.all, v)).map Tree.leaf) ∧
      (∀ v (p : Fin 4), v.scope = .player → reads (.node y.kids) [.scope .player, .player p, .prop v] =
        (s.lookup (.num (p.val : Int), v)).map Tree.leaf) := by
  obtain ⟨c, s, h1, h2, h3, h4⟩ := (run_from strict cs hcs initialTree [] agree_initial).2.1 k y hy
  refine ⟨c, s, h1, h2, h3, ?_, ?_, ?_⟩
  · intro v hv
    have := h4 Sub.all v (by unfold GoodKey; rw [hv])
    rw [← this]
    unfold placeOf
    rw [hv]
  · intro v hv
    have := h4 Sub.all v (by unfold GoodKey; rw [hv])
    rw [← this]
    unfold placeOf
    rw [hv]
  · intro v p hv
    have := h4 (.num (p.val : Int)) v (by unfold GoodKey; rw [hv]; exact ⟨p, rfl⟩)
    rw [← this]
    unfold placeOf
    rw [hv]
    simp only [Int.toNat_natCast]
    have a : Fin.ofNat 4 p.val = p := Fin.ofNat_val_eq_self p
    rw [a]

/-- The executor stops where the interpreter stops, with the same exception; only an assertion can stop it
    earlier. -/
theorem C43_errors (strict : Bool) (cs : List Cmd) (hcs : ∀ c ∈ cs, Addressed c) :
    ((execute strict cs).2 = none → (execute strict cs).1.length = cs.length ∧ ∃ s, interpretAll [] cs = .ok s) ∧
    (∀ e, (execute strict cs).2 = some e →
      ∃ c, cs[(execute strict cs).1.length]? = some c ∧
        (interpretAll [] (cs.take ((execute strict cs).1.length + 1)) = .error e ∨ c.update = .assertEqualOrSet)) := by
  obtain ⟨h1, h2, h3⟩ := run_from strict cs hcs initialTree [] agree_initial
  refine ⟨fun hn => ⟨h1 hn, ?_⟩, ?_⟩
  · cases cs with
    | nil => exact ⟨[], rfl⟩
    | cons c cs =>
      have hl := h1 hn
      have hlt : cs.length < (executeFrom strict initialTree (c :: cs)).1.length := by rw [hl]; simp
      obtain ⟨_, s, _, hs, _⟩ := h2 cs.length _ (List.getElem?_eq_getElem hlt)
      refine ⟨s, ?_⟩
      rw [← hs, List.take_of_length_le (by simp)]
  · intro e he
    obtain ⟨c, s, hc, hs, h⟩ := h3 e he
    refine ⟨c, hc, ?_⟩
    rcases h with h | ⟨v, _, h, _⟩
    · left
      have ht : cs.take ((execute strict cs).1.length + 1) = cs.take (execute strict cs).1.length ++ [c] := by
        rw [List.take_add_one]
        have hc' : cs[(execute strict cs).1.length]? = some c := hc
        rw [hc']
        rfl
      rw [ht, interpretAll_append]
      have hs' : interpretAll [] (cs.take (execute strict cs).1.length) = .ok s := hs
      rw [hs']
      show interpretAll s [c] = _
      rw [interpretAll, interpret_eq, h]
      rfl
    · exact .inr h

/-- **C44**: a lenient executor never raises `AssertionError`; -/
theorem C44_lenient (cs : List Cmd) (hcs : ∀ c ∈ cs, Addressed c) : (execute false cs).2 ≠ some .assertionError := by
  intro he
  obtain ⟨c, s, hc, hs, h⟩ := (run_from false cs hcs initialTree [] agree_initial).2.2 _ he
  have hmem : c ∈ cs := List.mem_of_getElem? hc
  obtain ⟨k, hk⟩ := (hcs c hmem).1
  rcases h with h | ⟨v, _, _, old, _, h | ⟨h, _⟩⟩
  · exact newValue_not_assert hk _ h
  · have := checkEqual_err hk _ _ _ h
    simp at this
  · simp at h

/-- a strict one raises it exactly at a mismatched assertion, and never goes past one; -/
theorem C44_strict (cs : List Cmd) (hcs : ∀ c ∈ cs, Addressed c) :
    ((execute true cs).2 = some .assertionError ↔ Mismatch cs (execute true cs).1.length) ∧
    ∀ k < (execute true cs).1.length, ¬ Mismatch cs k := by
  obtain ⟨h1, _, h3⟩ := run_from true cs hcs initialTree [] agree_initial
  have hassert : ∀ (c : Cmd) old, c.update = .assertEqualOrSet → newValue c old = .ok c.value := by
    intro c old hu
    rw [newValue, hu]
  refine ⟨⟨?_, ?_⟩, ?_⟩
  · intro he
    obtain ⟨c, s, hc, hs, h⟩ := h3 _ he
    obtain ⟨k, hk⟩ := (hcs c (List.mem_of_getElem? hc)).1
    rcases h with h | ⟨v, hv, hu, old, ho, h | ⟨_, _, h⟩⟩
    · exact absurd h (newValue_not_assert hk _)
    · have := checkEqual_err hk _ _ _ h
      simp at this
    · rw [hassert c _ hu] at hv
      injection hv with hv
      subst hv
      exact ⟨c, s, old, k, hc, hu, hs, ho, hk, (checkEqual_same hk _ _).2.mp h⟩
  · rintro ⟨c, s, old, k, hc, hu, hs, ho, hk, hd⟩
    cases he : (execute true cs).2 with
    | none =>
      have hl : (execute true cs).1.length = cs.length := h1 he
      rw [hl, List.getElem?_eq_none (Nat.le_refl _)] at hc
      simp at hc
    | some e =>
      obtain ⟨c', s', hc', hs', h⟩ := h3 e he
      have e1 : c' = c := by
        have hc'' : cs[(execute true cs).1.length]? = some c' := hc'
        rw [hc] at hc''
        injection hc'' with hc''
        exact hc''.symm
      have e2 : s' = s := by
        have hs'' : interpretAll [] (cs.take (execute true cs).1.length) = .ok s' := hs'
        rw [hs] at hs''
        injection hs'' with hs''
        exact hs''.symm
      subst e1 e2
      have hq := (checkEqual_same hk c'.value old).2.mpr hd
      rcases h with h | ⟨v, hv, _, old', ho', h⟩
      · rw [hassert c' _ hu] at h
        simp at h
      · rw [hassert c' _ hu] at hv
        injection hv with hv
        subst hv
        rw [ho] at ho'
        injection ho' with ho'
        subst ho'
        rcases h with h | ⟨_, h, _⟩
        · rw [hq] at h; simp at h
        · rw [h]
  · rintro k hlt ⟨c, s, old, kind, hc, hu, hs, ho, hk, hd⟩
    exact run_no_mismatch cs hcs initialTree [] agree_initial k hlt c s old hc hu hs ho ((checkEqual_same hk _ _).2.mpr hd)

/-- and up to there both yield the same states: either the runs are the same, or the strict one stops with
    `AssertionError` having yielded a proper beginning of the other's states. -/
theorem C44_same (cs : List Cmd) (hcs : ∀ c ∈ cs, Addressed c) :
    execute true cs = execute false cs ∨
    ((execute true cs).2 = some .assertionError ∧ (execute true cs).1.length < (execute false cs).1.length ∧
      (execute true cs).1 <+: (execute false cs).1) :=
  run_strict cs hcs initialTree [] agree_initial

/-- a score set to 250 and asserted to be 240 -/
def scoreCmds : List Cmd :=
  [{ prop := view .player "score", update := .replace, sub := .num 1, value := .num (.int 250), timestamp := some 0 },
   { prop := view .game "wind", update := .resetDefault, timestamp := some 1 },
   { prop := view .player "score", update := .assertEqualOrSet, sub := .num 1, value := .num (.int 240), timestamp := some 2 }]

theorem score_kind : HasKind (view .player "score") .score := ⟨.player, "score", by decide +kernel, rfl⟩
theorem wind_kind : HasKind (view .game "wind") .index := ⟨.game, "wind", by decide +kernel, rfl⟩

example : ∀ c ∈ scoreCmds, Addressed c := by
  intro c hc
  simp only [scoreCmds, List.mem_cons, List.not_mem_nil, or_false] at hc
  rcases hc with rfl | rfl | rfl
  · exact ⟨⟨_, score_kind⟩, 1, rfl⟩
  · exact ⟨⟨_, wind_kind⟩, rfl⟩
  · exact ⟨⟨_, score_kind⟩, 1, rfl⟩

example : Mismatch scoreCmds 2 := by
  refine ⟨_, _, .num (.int 250), .score, rfl, rfl, rfl, ?_, score_kind, ?_⟩
  · decide +kernel
  · show Differ .score (.num (.int 240)) (.num (.int 250))
    rw [Differ, if_neg (by decide)]
    decide +kernel

example : (execute true scoreCmds).1.length = 2 ∧ (execute false scoreCmds).1.length = 3 := by decide +kernel

end Verif.Props
