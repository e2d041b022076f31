import Mathlib.Data.List.Induction
import Verif.Model.DictCalls
import Verif.Props.DictStore

/-! Property C109: what the calls of a dictionary do to a state. -/
namespace Verif.Props
open Verif.Py Verif.Model Verif.Spec Verif.Proofs

/-- **C109.** Assigning to a key, deleting one, `pop`, `popitem`, `update` and deleting an attribute are refused, and all objects are
    as they were: every object stands for what it stood for. -/
theorem C109_refused (r : Nat) (c : DictCall) (hc : c ≠ .clear) (h : DStore) :
    (dictCall r c h).1 = .error .typeError ∧
    ∀ (x : Nat) parent kids, ObjIs h x parent kids → ObjIs (dictCall r c h).2 x parent kids := by
  cases c <;> first | exact absurd rfl hc | exact ⟨rfl, fun _ _ _ hx => hx⟩

theorem transferAll_length {make : List (Key × DArg) → Option (Nat × Key) → DStore → Option (Nat × DStore)}
    (hm : ∀ a p h x h1, make a p h = some (x, h1) → h.length ≤ h1.length) {self : Nat} :
    ∀ (as : List (Key × DArg)) (h : DStore) {es h1}, transferAll make self as h = some (es, h1) → h.length ≤ h1.length
  | [], h, es, h1, e => by simp [transferAll] at e; rw [← e.2]; exact Nat.le_refl _
  | (k, .plain (.leaf v)) :: rest, h, es, h1, e => by
    rw [transferAll] at e
    split at e
    · simp at e
    · rename_i es2 h2 e2
      simp at e
      rw [← e.2]
      exact transferAll_length hm rest h e2
  | (k, .plain (.node kids)) :: rest, h, es, h1, e => by
    rw [transferAll] at e
    split at e
    · simp at e
    · rename_i r h2 e2
      split at e
      · simp at e
      · rename_i es3 h3 e3
        simp at e
        rw [← e.2]
        exact Nat.le_trans (hm _ _ _ _ _ e2) (transferAll_length hm rest h2 e3)
  | (k, .ref r0) :: rest, h, es, h1, e => by
    rw [transferAll] at e
    split at e
    · simp at e
    · split at e
      · simp at e
      · rename_i r h2 e2
        split at e
        · simp at e
        · rename_i es3 h3 e3
          simp at e
          rw [← e.2]
          exact Nat.le_trans (hm _ _ _ _ _ e2) (transferAll_length hm rest h2 e3)

theorem newDict_fresh : ∀ (fuel : Nat) a p (h : DStore) x h1, newDict fuel a p h = some (x, h1) → x = h.length ∧ h.length < h1.length
  | 0, a, p, h, x, h1, e => by simp [newDict] at e
  | fuel + 1, a, p, h, x, h1, e => by
    rw [newDict] at e
    split at e
    · simp at e
    · rename_i es h2 e2
      simp at e
      have := transferAll_length (fun a p h x h1 e => Nat.le_of_lt (newDict_fresh fuel a p h x h1 e).2) _ _ e2
      refine ⟨e.1.symm, ?_⟩
      rw [← e.2, List.length_set]
      simp at this
      omega

theorem setRun_fresh {fuel : Nat} : ∀ (up : Nat) {r k a} {h : DStore} {x h1}, setRun fuel up r k a h = some (x, h1) →
    h.length ≤ x ∧ h.length ≤ h1.length
  | 0, _, _, _, _, _, _, e => by simp [setRun] at e
  | up + 1, r, k, a, h, x, h1, e => by
    rw [setRun] at e
    split at e
    · simp at e
    · split at e
      · simp at e
      · rename_i m h2 e2
        obtain ⟨f1, f2⟩ := newDict_fresh _ _ _ _ _ _ e2
        split at e
        · simp at e
          rw [← e.1, ← e.2, f1]
          exact ⟨Nat.le_refl _, Nat.le_of_lt f2⟩
        · obtain ⟨g1, g2⟩ := setRun_fresh up e
          exact ⟨by omega, by omega⟩

theorem clear_eq {h : DStore} {c : Nat} : ∃ h', dictCall c .clear h = (.ok (), h') ∧ h'.length = h.length ∧
    (∀ i, i ≠ c → h'[i]? = h[i]?) ∧ (∀ o, h[c]? = some o → h'[c]? = some ⟨o.parent, []⟩) := by
  unfold dictCall
  cases e : h[c]? with
  | none => exact ⟨h, by simp only [e], rfl, fun _ _ => rfl, fun o ho => by simp at ho⟩
  | some o =>
    refine ⟨h.set c ⟨o.parent, []⟩, by simp only [e], by simp, ?_, ?_⟩
    · intro i hi
      rw [List.getElem?_set_ne (fun h => hi h.symm)]
    · intro o' ho'
      simp only [Option.some.injEq] at ho'
      subst ho'
      rw [List.getElem?_set_self (by exact (List.getElem?_eq_some_iff.1 e).1)]

/-- clearing an object with a lower number than a state's -/
theorem clear_below {h : DStore} {c r : Nat} {parent : Option (Nat × Key)} {kids : List (Key × Tree)} (hr : ObjIs h r parent kids) (hc : c < r) :
    ObjIs (dictCall c .clear h).2 r parent kids := by
  obtain ⟨h', e, _, hne, _⟩ := clear_eq (h := h) (c := c)
  rw [e]
  obtain ⟨o, o1, o2, o3⟩ := hr
  refine ⟨o, by rw [hne r (by omega)]; exact o1, o2, ?_⟩
  refine KidsAre.mono (n := r) ?_ (Nat.le_refl _) _ o3
  intro i o hi ho
  rw [hne i (by omega)]
  exact ho

/-- clearing an object made after a state -/
theorem clear_above {h h1 : DStore} {c r : Nat} {parent : Option (Nat × Key)} {kids : List (Key × Tree)} (hr : ObjIs h r parent kids) (hp : h <+: h1)
    (hc : h.length ≤ c) : ObjIs (dictCall c .clear h1).2 r parent kids := by
  obtain ⟨h', e, hl, hne, _⟩ := clear_eq (h := h1) (c := c)
  rw [e]
  refine ObjIs.mono ?_ hr
  rw [List.prefix_iff_getElem?]
  intro i hi
  show h'[i]? = _
  rw [hne i (by omega)]
  exact (List.prefix_iff_getElem?.1 hp) i hi

/-- **C109.** `clear()` is not refused.  `root[k1]...[kn].set(k, v)` gives a new state `r'`; emptying any dictionary that existed before, so
    any in `root`, leaves the new state as it is, and emptying any made by the call, so any in the new state, leaves `root` as it is. -/
theorem C109_clear_apart (h : DStore) (root r : Nat) (kids : List (Key × Tree)) (hroot : ObjIs h root none kids) (ks : List Key)
    (hr : dictWalk root ks h = some r) (k : Key) (a : DArg) (t : Tree) (ha : ArgIs h a t) :
    ∃ r' h' kids', Returns (fun fuel up => setRun fuel up r k a h) (r', h') ∧ ObjIs h' r' none kids' ∧
      (∀ c, c < h.length → (dictCall c .clear h').1 = .ok () ∧ ObjIs (dictCall c .clear h').2 r' none kids') ∧
      (∀ c, h.length ≤ c → (dictCall c .clear h').1 = .ok () ∧ ObjIs (dictCall c .clear h').2 root none kids) := by
  obtain ⟨r', h', kids', e, p, _, o, _⟩ := C42_objects_set h root r kids hroot ks hr k a t ha
  have hf : h.length ≤ r' := by
    obtain ⟨n, hn⟩ := e
    exact (setRun_fresh n (hn n n (Nat.le_refl _) (Nat.le_refl _))).1
  have hok : ∀ c, (dictCall c .clear h').1 = .ok () := by
    intro c
    obtain ⟨x, e, _⟩ := clear_eq (h := h') (c := c)
    rw [e]
  exact ⟨r', h', kids', e, o, fun c hc => ⟨hok c, clear_below o (by omega)⟩, fun c hc => ⟨hok c, clear_above hroot p hc⟩⟩

theorem dictWalk_le {h : DStore} : ∀ (ks : List Key) {r c : Nat} {parent : Option (Nat × Key)} {kids : List (Key × Tree)},
    ObjIs h r parent kids → dictWalk r ks h = some c → r ≤ c ∧ dictWalk r ks (dictCall c .clear h).2 = some c
  | [], r, c, parent, kids, _, e => by
    simp only [dictWalk, Option.some.injEq] at e
    exact ⟨by omega, by simp [dictWalk, e]⟩
  | k :: ks, r, c, parent, kids, ho, e => by
    rw [dictWalk] at e
    split at e
    · rename_i r' hi
      obtain ⟨o, o1, o2, o3⟩ := ho
      have hi' := hi
      rw [dictItem, o1] at hi'
      simp only at hi'
      rcases kidsAre_lookup k kids o3 with ⟨_, e2⟩ | ⟨t, s, _, e2, e3⟩
      · rw [e2] at hi'; cases hi'
      · rw [e2] at hi'
        cases Option.some.inj hi'
        cases t with
        | leaf v => rw [SlotIs] at e3; cases e3
        | node kids' =>
          rw [SlotIs] at e3
          obtain ⟨r2, o', q1, q2, q3, q4, q5⟩ := e3
          cases q1
          obtain ⟨w1, w2⟩ := dictWalk_le ks ⟨o', q3, q4, q5⟩ e
          refine ⟨by omega, ?_⟩
          obtain ⟨h', hcl, _, hne, _⟩ := clear_eq (h := h) (c := c)
          rw [hcl] at w2 ⊢
          have : dictItem r k h' = dictItem r k h := by
            unfold dictItem
            rw [hne r (by omega)]
          rw [dictWalk]
          simp only at this w2
          rw [this, hi]
          exact w2
    · cases e

/-- **C109.** But the state itself is changed: after `root[k1]...[kn].clear()` the dictionary at that place is still there and is
    empty, with the parent it had.  Of the other dictionaries none has changed. -/
theorem C109_clear_empties (h : DStore) (root c : Nat) (kids : List (Key × Tree)) (hroot : ObjIs h root none kids) (ks : List Key)
    (hc : dictWalk root ks h = some c) :
    ∃ h', dictCall c .clear h = (.ok (), h') ∧ dictWalk root ks h' = some c ∧ (∀ k, dictItem c k h' = none) ∧
      (∀ parent kids', ObjIs h c parent kids' → ObjIs h' c parent []) ∧ ∀ x, x ≠ c → ∀ k, dictItem x k h' = dictItem x k h := by
  obtain ⟨h', e, _, hne, hs⟩ := clear_eq (h := h) (c := c)
  have hw := (dictWalk_le ks hroot hc).2
  rw [e] at hw
  refine ⟨h', e, hw, ?_, ?_, ?_⟩
  · intro k
    unfold dictItem
    cases hh : h[c]? with
    | none =>
      obtain ⟨d, _, hd⟩ := dictIs_walk ks (d := ⟨kids, []⟩) hroot hc
      have : ∃ parent, ObjIs h c parent d.kids := by
        cases hp : d.parents with
        | nil => rw [hp] at hd; exact ⟨_, hd⟩
        | cons x ps => rw [hp] at hd; obtain ⟨p, h1, _⟩ := hd; exact ⟨_, h1⟩
      obtain ⟨_, o, o1, _⟩ := this
      rw [hh] at o1
      cases o1
    | some o =>
      rw [hs o hh]
      rfl
  · rintro parent kids' ⟨o, o1, o2, _⟩
    exact ⟨_, hs o o1, o2, by rw [KidsAre]⟩
  · intro x hx k
    unfold dictItem
    rw [hne x hx]

theorem executeRunFrom_fresh {fuel up : Nat} {strict : Bool} : ∀ (cs : List Cmd) {r : Nat} {h : DStore} {ys e h'},
    executeRunFrom fuel up strict r cs h = some (ys, e, h') →
    (∀ y ∈ ys, h.length ≤ y.1) ∧ ys.Pairwise (fun a b => a.2.length ≤ b.1)
  | [], r, h, ys, e, h', he => by
    simp [executeRunFrom] at he
    rw [he.1]
    simp
  | c :: cs, r, h, ys, e, h', he => by
    rw [executeRunFrom] at he
    split at he
    · simp at he
      rw [he.1]
      simp
    · split at he
      · simp at he
      · rename_i r1 h1 s1
        split at he
        · simp at he
          rw [he.1]
          simp
        · split at he
          · simp at he
          · rename_i y h2 s2
            split at he
            · simp at he
            · rename_i ys3 e3 h3 s3
              simp at he
              obtain ⟨g1, g2⟩ := setRun_fresh up s1
              obtain ⟨g3, g4⟩ := setRun_fresh up s2
              obtain ⟨i1, i2⟩ := executeRunFrom_fresh cs s3
              rw [← he.1]
              refine ⟨?_, List.pairwise_cons.2 ⟨fun b hb => i1 b hb, i2⟩⟩
              intro z hz
              rcases List.mem_cons.1 hz with rfl | hz
              · exact Nat.le_trans g2 g3
              · exact Nat.le_trans g2 (Nat.le_trans g4 (i1 z hz))

theorem walk_lt {h : DStore} {root c : Nat} {kids : List (Key × Tree)} (hroot : ObjIs h root none kids) (ks : List Key)
    (hc : dictWalk root ks h = some c) : c < h.length := by
  obtain ⟨d, _, hd⟩ := dictIs_walk ks (d := ⟨kids, []⟩) hroot hc
  have : ∃ parent, ObjIs h c parent d.kids := by
    cases hp : d.parents with
    | nil => rw [hp] at hd; exact ⟨_, hd⟩
    | cons x ps => rw [hp] at hd; obtain ⟨p, h1, _⟩ := hd; exact ⟨_, h1⟩
  obtain ⟨_, o, o1, _⟩ := this
  exact (List.getElem?_eq_some_iff.1 o1).1

/-- **C109.** The states an executor yields have no dictionary in common: when all commands have been executed, emptying any dictionary
    of one of them leaves all the others as they were. -/
theorem C109_states (strict : Bool) (cs : List Cmd) (h : DStore) :
    ∃ ys h', Returns (fun fuel up => executeRun fuel up strict cs h) (ys, (execute strict cs).2, h') ∧
      ys.length = (execute strict cs).1.length ∧
      ∀ (j k : Nat), j ≠ k → ∀ rj hj ks c, ys[j]? = some (rj, hj) → dictWalk rj ks hj = some c →
        ∀ d, (execute strict cs).1[k]? = some d → ∃ rk hk, ys[k]? = some (rk, hk) ∧ ObjIs (dictCall c .clear h').2 rk none d.kids := by
  obtain ⟨ys, h', hr, hp, hl, hk⟩ := C43_objects strict cs h
  have hpw : ys.Pairwise (fun a b => a.2.length ≤ b.1) := by
    obtain ⟨n, hn⟩ := hr
    have := hn n n (Nat.le_refl _) (Nat.le_refl _)
    simp only [executeRun] at this
    split at this
    · cases this
    · exact (executeRunFrom_fresh cs this).2
  refine ⟨ys, h', hr, hl, ?_⟩
  intro j k hjk rj hj ks c ej ec d ed
  obtain ⟨rk, hk', ek, pk, ok, ok'⟩ := hk k d ed
  refine ⟨rk, hk', ek, ?_⟩
  obtain ⟨jlt, ej'⟩ := List.getElem?_eq_some_iff.1 ej
  obtain ⟨klt, ek'⟩ := List.getElem?_eq_some_iff.1 ek
  obtain ⟨rj2, hj2, ej2, _, oj, _⟩ := hk j _ (List.getElem?_eq_getElem (by omega))
  rw [ej] at ej2
  cases ej2
  have hle := (dictWalk_le ks oj ec).1
  have hlt := walk_lt oj ks ec
  rw [List.pairwise_iff_getElem] at hpw
  rcases Nat.lt_or_gt_of_ne hjk with hlt' | hgt
  · have := hpw j k jlt klt hlt'
    rw [ej', ek'] at this
    exact clear_below ok' (Nat.lt_of_lt_of_le hlt this)
  · have := hpw k j klt jlt hgt
    rw [ej', ek'] at this
    exact clear_above ok pk (Nat.le_trans this hle)

theorem dictWalk_append (h : DStore) : ∀ (ks ls : List Key) (r : Nat),
    dictWalk r (ks ++ ls) h = (dictWalk r ks h).bind (fun x => dictWalk x ls h)
  | [], ls, r => rfl
  | k :: ks, ls, r => by
    rw [List.cons_append, dictWalk, dictWalk]
    split
    · exact dictWalk_append h ks ls _
    · rfl

/-- one step of a path, looked at from its end -/
theorem walk_snoc {h : DStore} {root c : Nat} {kids : List (Key × Tree)} (hroot : ObjIs h root none kids) {ks : List Key} {k : Key}
    (hc : dictWalk root (ks ++ [k]) h = some c) :
    ∃ p o, dictWalk root ks h = some p ∧ dictItem p k h = some (.ref c) ∧ h[c]? = some o ∧ o.parent = some (p, k) := by
  rw [dictWalk_append] at hc
  cases e : dictWalk root ks h with
  | none => rw [e] at hc; cases hc
  | some p =>
    rw [e] at hc
    simp only [Option.bind_some] at hc
    rw [dictWalk] at hc
    split at hc
    · rename_i r' hi
      cases hc
      obtain ⟨d, _, hd⟩ := dictIs_walk ks (d := ⟨kids, []⟩) hroot e
      have : ∃ parent, ObjIs h p parent d.kids := by
        cases hp : d.parents with
        | nil => rw [hp] at hd; exact ⟨_, hd⟩
        | cons x ps => rw [hp] at hd; obtain ⟨q, h1, _⟩ := hd; exact ⟨_, h1⟩
      obtain ⟨parent, o, o1, o2, o3⟩ := this
      have hi' := hi
      rw [dictItem, o1] at hi'
      simp only at hi'
      rcases kidsAre_lookup k _ o3 with ⟨_, e2⟩ | ⟨t, s, _, e2, e3⟩
      · rw [e2] at hi'; cases hi'
      · rw [e2] at hi'
        cases Option.some.inj hi'
        cases t with
        | leaf v => rw [SlotIs] at e3; cases e3
        | node kids' =>
          rw [SlotIs] at e3
          obtain ⟨r2, o', q1, q2, q3, q4, q5⟩ := e3
          cases q1
          exact ⟨p, o', rfl, hi, q3, q4⟩
    · cases hc

/-- **C109.** No dictionary stands at two places of a state. -/
theorem C109_one_place (h : DStore) (root c : Nat) (kids : List (Key × Tree)) (hroot : ObjIs h root none kids) (ks ps : List Key)
    (hk : dictWalk root ks h = some c) (hp : dictWalk root ps h = some c) : ks = ps := by
  induction ks using List.reverseRecOn generalizing c ps with
  | nil =>
    cases hk
    rcases List.eq_nil_or_concat ps with rfl | ⟨ps', k, rfl⟩
    · rfl
    · rw [List.concat_eq_append] at hp
      obtain ⟨_, o, _, _, o1, o2⟩ := walk_snoc hroot hp
      obtain ⟨o', o1', o2', _⟩ := hroot
      rw [o1] at o1'
      cases o1'
      rw [o2] at o2'
      cases o2'
  | append_singleton ks k ih =>
    obtain ⟨p, o, e1, _, o1, o2⟩ := walk_snoc hroot hk
    rcases List.eq_nil_or_concat ps with rfl | ⟨ps', k', rfl⟩
    · cases hp
      obtain ⟨o', o1', o2', _⟩ := hroot
      rw [o1] at o1'
      cases o1'
      rw [o2] at o2'
      cases o2'
    · rw [List.concat_eq_append] at hp ⊢
      obtain ⟨p', o', e1', _, o1', o2'⟩ := walk_snoc hroot hp
      rw [o1] at o1'
      cases o1'
      rw [o2] at o2'
      cases o2'
      rw [ih p ps' e1 e1']

/-- **C109.** After `root[k1]...[kn].clear()` every other place of the same state, except those inside the emptied dictionary, has the
    dictionary it had, with the entries it had. -/
theorem C109_clear_elsewhere (h : DStore) (root c : Nat) (kids : List (Key × Tree)) (hroot : ObjIs h root none kids) (ks : List Key)
    (hc : dictWalk root ks h = some c) (ps : List Key) (hps : ¬ ks <+: ps) (x : Nat) (hx : dictWalk root ps h = some x) :
    dictWalk root ps (dictCall c .clear h).2 = some x ∧ ∀ k, dictItem x k (dictCall c .clear h).2 = dictItem x k h := by
  obtain ⟨h', e, _, _, _, hne⟩ := C109_clear_empties h root c kids hroot ks hc
  rw [e]
  induction ps using List.reverseRecOn generalizing x with
  | nil =>
    cases hx
    refine ⟨rfl, hne root ?_⟩
    intro hrc
    have := C109_one_place h root root kids hroot ks [] (by rw [hc, hrc]) rfl
    exact hps (by rw [this]; exact List.prefix_refl _)
  | append_singleton ps k ih =>
    obtain ⟨p, _, e1, hi, _, _⟩ := walk_snoc hroot hx
    obtain ⟨i1, i2⟩ := ih (fun hpre => hps (hpre.trans (List.prefix_append _ _))) p e1
    constructor
    · show dictWalk root (ps ++ [k]) h' = some x
      have i1 : dictWalk root ps h' = some p := i1
      rw [dictWalk_append, i1]
      simp only [Option.bind_some]
      rw [dictWalk, show dictItem p k h' = dictItem p k h from i2 k, hi]
      rfl
    · refine hne x ?_
      intro hxc
      rw [hxc] at hx
      have := C109_one_place h root c kids hroot ks (ps ++ [k]) hc hx
      exact hps (by rw [this]; exact List.prefix_refl _)

/-- an instance: `{"a": {"b": {}, "c": 1}, "d": 2}` and the state after a write at `["a"]["b"]`.  Emptying `["a"]` of the first leaves
    the second able to find `["a"]["b"]["x"]`, but the first cannot find `["a"]["c"]` any more. -/
example : ∃ h, newDict 3 (exKids.map (fun e => (e.1, .plain e.2))) none [] = some (0, h) ∧
    dictWalk 0 [.text "a".toList] h = some 1 ∧ (dictItem 1 (.text "c".toList) h).isSome = true ∧
    ∃ h', setRun 3 3 2 (.text "x".toList) (.plain (.leaf (.num (.int 5)))) h = some (6, h') ∧
      (dictItem 1 (.text "c".toList) (dictCall 1 .clear h').2).isSome = false ∧
      dictWalk 6 [.text "a".toList, .text "b".toList] (dictCall 1 .clear h').2 = some 8 ∧
      (dictItem 8 (.text "x".toList) (dictCall 1 .clear h').2).isSome = true ∧
      dictWalk 0 [.text "a".toList, .text "b".toList] h' = some 2 ∧ (dictItem 1 (.text "c".toList) (dictCall 2 .clear h').2).isSome = true ∧
      (dictCall 1 (.pop (.text "c".toList)) h').1 = .error .typeError := ⟨_, rfl, rfl, rfl, _, rfl, rfl, rfl, rfl, rfl, rfl, rfl⟩

/-- two commands give two states; emptying the game's properties in the first leaves those in the second -/
example : ∃ r0 h0 r1 h1 h', (executeRun 9 9 true
      [{ prop := view .game "sub_round", update := .replace, value := .num (.int 2), timestamp := some 1 },
       { prop := view .game "sub_round", update := .replace, value := .num (.int 3), timestamp := some 2 }] []) = some ([(r0, h0), (r1, h1)], none, h') ∧
    ∃ c0 c1, dictWalk r0 [.scope .game, .text "single".toList] h0 = some c0 ∧ dictWalk r1 [.scope .game, .text "single".toList] h1 = some c1 ∧
      (dictItem c0 (.prop (view .game "sub_round")) h0).isSome = true ∧
      (dictItem c0 (.prop (view .game "sub_round")) (dictCall c0 .clear h').2).isSome = false ∧
      (dictItem c1 (.prop (view .game "sub_round")) (dictCall c0 .clear h').2).isSome = true :=
  ⟨_, _, _, _, _, rfl, _, _, rfl, rfl, rfl, rfl, rfl⟩

end Verif.Props
