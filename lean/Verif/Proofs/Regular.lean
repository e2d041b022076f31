import Verif.Proofs.Fine
import Verif.Proofs.Strict
import Verif.Props.Header
import Verif.Props.Number
import Verif.Spec.Regular

/-! A regular record can always be converted: no handler fails and no command fails to be interpreted. -/
namespace Verif.Proofs
open Verif.Py Verif.Model Verif.Spec

/-! ### Values of the kind of their property -/

/-- list properties hold lists, scores and indices hold numbers -/
def KindOk (k : PropKind) (x : Val) : Prop :=
  (k.isList = true → ∃ l, x = .list l) ∧ (k = .score ∨ k = .index → ∃ m, x = .num m)

def Typed (s : IState) : Prop := ∀ sub v k x, HasKind v k → s.lookup (sub, v) = some x → KindOk k x

theorem typed_nil : Typed [] := by intro _ _ _ _ _ h; simp at h

theorem newValue_kind {c : Cmd} (hc : Fine c) {k : PropKind} (hk : HasKind c.prop k) {old x : Val}
    (h : newValue c old = .ok x) : KindOk k x := by
  obtain ⟨_, s, n, k', hm, hp, hs, _⟩ := hc
  have hk' : HasKind c.prop k' := ⟨s, n, hm, hp⟩
  cases kind_unique hk hk'
  have s1 := hs.2.2.2.2.1
  have s2 := hs.2.2.2.2.2
  unfold newValue at h
  split at h
  · rename_i hu
    cases h
    rw [hu] at s1 s2
    simp only [reduceCtorEq, false_or] at s1 s2
    exact ⟨s1, s2⟩
  · rename_i hu
    rw [add_kind hk] at h
    rw [hu] at s1 s2
    simp only [reduceCtorEq, false_or] at s1 s2
    constructor
    · intro hl
      obtain ⟨l, hv⟩ := s1 hl
      rw [hv] at h
      cases old <;> simp [Val.add, Val.asNum] at h
      exact ⟨_, h.symm⟩
    · intro hl
      obtain ⟨m, hv⟩ := s2 hl
      rw [hv] at h
      cases old <;> simp [Val.add, Val.asNum] at h
      · exact ⟨_, h.symm⟩
      · exact ⟨_, h.symm⟩
  · rename_i hu
    rw [remove_kind hk] at h
    split at h
    · rename_i hl
      obtain ⟨l, r, _, rfl, _⟩ := removeAll_list h
      refine ⟨fun _ => ⟨r, rfl⟩, ?_⟩
      rintro (rfl | rfl) <;> cases hl
    · rename_i hl
      refine ⟨fun x => absurd x hl, fun _ => ?_⟩
      unfold Val.sub at h
      split at h
      · cases h; exact ⟨_, rfl⟩
      · cases h
  · rw [default_kind hk] at h
    split at h
    · rename_i e
      cases h
      subst e
      exact ⟨fun hx => absurd hx (by decide), fun _ => ⟨.int 0, rfl⟩⟩
    · split at h
      · rename_i hl
        cases h
        refine ⟨fun _ => ⟨_, rfl⟩, ?_⟩
        rintro (rfl | rfl) <;> cases hl
      · cases h
  · rename_i hu
    cases h
    rw [hu] at s1 s2
    simp only [reduceCtorEq, false_or] at s1 s2
    exact ⟨s1, s2⟩
  · cases h

theorem interpret_typed {s s1 : IState} {c : Cmd} {v : Val} (hs : Typed s) (hc : Fine c) (h : interpret s c = .ok (v, s1)) :
    Typed s1 := by
  rw [interpret] at h
  simp only [bind_ok, pure_ok, Prod.mk.injEq] at h
  obtain ⟨x, hx, rfl, rfl⟩ := h
  intro sub w k y hk hy
  rw [lookup_iset] at hy
  split at hy
  · rename_i e
    injection e with e1 e2
    cases hy
    exact newValue_kind hc (e2 ▸ hk) hx
  · exact hs sub w k y hk hy

theorem post_typed {ts : Option Int} {s s' : IState} {cs out : List Cmd} (hs : Typed s) (hf : Fines cs)
    (h : postprocess ts s cs = .ok (s', out)) : Typed s' := by
  induction cs generalizing s out with
  | nil => simp only [postprocess, Except.ok.injEq, Prod.mk.injEq] at h; rw [← h.1]; exact hs
  | cons c cs ih =>
    simp only [postprocess, bind_ok, pure_ok] at h
    obtain ⟨⟨v, s1⟩, h1, ⟨s2, l⟩, h2, h3⟩ := h
    simp only [Prod.mk.injEq] at h3
    obtain ⟨rfl, rfl⟩ := h3
    exact ih (interpret_typed hs (hf c (by simp)) h1) (fun x hx => hf x (by simp [hx])) h2

/-- properties that are there stay there, and every command leaves its property there -/
theorem post_present {ts : Option Int} {s s' : IState} {cs out : List Cmd} (h : postprocess ts s cs = .ok (s', out)) :
    (∀ k, s.lookup k ≠ none → s'.lookup k ≠ none) ∧ ∀ c ∈ cs, s'.lookup (c.sub, c.prop) ≠ none := by
  induction cs generalizing s out with
  | nil => simp only [postprocess, Except.ok.injEq, Prod.mk.injEq] at h; rw [← h.1]; simp
  | cons c cs ih =>
    simp only [postprocess, bind_ok, pure_ok] at h
    obtain ⟨⟨v, s1⟩, h1, ⟨s2, l⟩, h2, h3⟩ := h
    simp only [Prod.mk.injEq] at h3
    obtain ⟨rfl, rfl⟩ := h3
    rw [interpret] at h1
    simp only [bind_ok, pure_ok, Prod.mk.injEq] at h1
    obtain ⟨x, _, rfl, rfl⟩ := h1
    obtain ⟨i1, i2⟩ := ih h2
    refine ⟨?_, ?_⟩
    · intro k hk
      refine i1 k ?_
      rw [lookup_iset]
      split
      · simp
      · exact hk
    · intro d hd
      rcases List.mem_cons.1 hd with rfl | hd
      · refine i1 _ ?_
        rw [lookup_iset]; simp
      · exact i2 d hd

/-! ### Commands that can be interpreted -/

/-- whatever the state, these commands are interpreted -/
def Always (cs : List Cmd) : Prop := ∀ ts s, ∃ s' out, postprocess ts s cs = .ok (s', out)

theorem post_append (ts : Option Int) (s : IState) (a b : List Cmd) : postprocess ts s (a ++ b) =
    (do let (s1, o1) ← postprocess ts s a
        let (s2, o2) ← postprocess ts s1 b
        pure (s2, o1 ++ o2)) := by
  induction a generalizing s with
  | nil =>
    simp only [List.nil_append, postprocess, bind, Except.bind, pure, Except.pure]
    cases postprocess ts s b <;> rfl
  | cons c a ih =>
    simp only [List.cons_append, postprocess, bind, Except.bind, pure, Except.pure]
    cases interpret s c with
    | error e => rfl
    | ok r =>
      obtain ⟨v, s1⟩ := r
      simp only [ih, bind, Except.bind, pure, Except.pure]
      cases postprocess ts s1 a with
      | error e => rfl
      | ok r =>
        obtain ⟨s2, o⟩ := r
        simp only
        cases postprocess ts s2 b <;> rfl

theorem always_nil : Always [] := fun _ s => ⟨s, [], rfl⟩
theorem always_append {a b : List Cmd} (ha : Always a) (hb : Always b) : Always (a ++ b) := by
  intro ts s
  obtain ⟨s1, o1, h1⟩ := ha ts s
  obtain ⟨s2, o2, h2⟩ := hb ts s1
  refine ⟨s2, o1 ++ o2, ?_⟩
  rw [post_append, h1]
  simp only [bind, Except.bind, h2]
  rfl
theorem always_flatten {ls : List (List Cmd)} (h : ∀ l ∈ ls, Always l) : Always ls.flatten := by
  induction ls with
  | nil => exact always_nil
  | cons l ls ih =>
    rw [List.flatten_cons]
    exact always_append (h l (by simp)) (ih (fun x hx => h x (by simp [hx])))

/-- a command that sets its property, or puts back the default of a list or an index -/
def Settled (c : Cmd) : Prop := ∀ old, ∃ x, newValue c old = .ok x

theorem always_one {c : Cmd} (h : Settled c) : Always [c] := by
  intro ts s
  obtain ⟨x, hx⟩ := h (s.get (c.sub, c.prop))
  refine ⟨s.set (c.sub, c.prop) x, [{ c with state := x, timestamp := ts }], ?_⟩
  simp only [postprocess, interpret, hx, bind, Except.bind, pure, Except.pure]

theorem always_of {cs : List Cmd} (h : ∀ c ∈ cs, Settled c) : Always cs := by
  induction cs with
  | nil => exact always_nil
  | cons c cs ih =>
    exact always_append (a := [c]) (always_one (h c (by simp))) (ih (fun x hx => h x (by simp [hx])))

theorem settled_replace {c : Cmd} (h : c.update = .replace) : Settled c := by intro old; rw [newValue, h]; exact ⟨_, rfl⟩
theorem settled_assert {c : Cmd} (h : c.update = .assertEqualOrSet) : Settled c := by
  intro old; rw [newValue, h]; exact ⟨_, rfl⟩
theorem settled_reset {c : Cmd} {k : PropKind} (h : c.update = .resetDefault) (hk : HasKind c.prop k)
    (hd : k = .index ∨ k.isList = true) : Settled c := by
  intro old
  rw [newValue, h]
  simp only [default_kind hk]
  rcases hd with rfl | hd
  · exact ⟨_, rfl⟩
  · rw [if_pos hd]
    split
    · exact ⟨_, rfl⟩
    · exact ⟨_, rfl⟩

/-- commands about different properties, each of which can be interpreted where it is -/
theorem post_ready {ts : Option Int} {cs : List Cmd} : ∀ {s : IState}, (cs.map (fun c => (c.sub, c.prop))).Nodup →
    (∀ c ∈ cs, ∃ x, newValue c (s.get (c.sub, c.prop)) = .ok x) → ∃ s' out, postprocess ts s cs = .ok (s', out) := by
  induction cs with
  | nil => intro s _ _; exact ⟨s, [], rfl⟩
  | cons c cs ih =>
    intro s hn h
    obtain ⟨x, hx⟩ := h c (by simp)
    rw [List.map_cons, List.nodup_cons] at hn
    obtain ⟨s2, o2, h2⟩ := ih (s := s.set (c.sub, c.prop) x) hn.2 (fun d hd => by
      rw [get_iset, if_neg]
      · exact h d (by simp [hd])
      · intro e
        exact hn.1 (e ▸ List.mem_map.2 ⟨d, hd, rfl⟩))
    refine ⟨s2, { c with state := x, timestamp := ts } :: o2, ?_⟩
    simp only [postprocess, interpret, hx, bind, Except.bind, pure, Except.pure, h2]

theorem call_ok {ctx ctx1 : Ctx} {t : TEvent} {l : List Cmd} (hg : generate ctx t.ev = .ok (ctx1, l))
    (hp : ∃ s' out, postprocess (some t.timestamp) ctx1.vals l = .ok (s', out)) :
    ∃ ctx' out, callTranslator false ctx t = .ok (ctx', out) := by
  unfold callTranslator
  rw [hg]
  simp only [bind, Except.bind, pure, Except.pure]
  by_cases h : l = []
  · rw [if_neg (by simpa using h)]
    exact ⟨_, _, rfl⟩
  · obtain ⟨s', out, h'⟩ := hp
    rw [if_pos h, h']
    exact ⟨_, _, rfl⟩

/-! ### What stays as the record goes on -/

/-- the settings of the record are known -/
structure TableSet (n w : Nat) (ctx : Ctx) : Prop where
  count : ctx.playerCount = .ok n
  index : ∃ ix, SubCat.make [(w : Int) + 1, 4] = .ok ix ∧ ctx.indexer = some ix
  sound : Sound ctx.vals
  typed : Typed ctx.vals

/-- the properties a move changes -/
def moveNames : List String :=
  ["hand", "round", "discard_from_hand", "discard_tiles", "meld_public_tiles", "fixed_meld", "bonus_tiles", "score"]

/-- a round has begun: what moves change is there -/
structure Begun (n : Nat) (ctx : Ctx) : Prop where
  player : ∀ p < n, ∀ a ∈ moveNames, ctx.vals.lookup (ofPlayer p a) ≠ none
  dora : ctx.vals.lookup (ofGame "dora_indicators") ≠ none
  right : ∀ p < n, ctx.right.lookup (p : Int) ≠ none

theorem call_typed {ctx ctx' : Ctx} {t : TEvent} {out : List Cmd} {strict : Bool} (hs : Sound ctx.vals) (ht : Typed ctx.vals)
    (hseat : Seated t.ev) (h : callTranslator strict ctx t = .ok (ctx', out)) : Sound ctx'.vals ∧ Typed ctx'.vals := by
  obtain ⟨ctx1, l, hg, hp, _, _⟩ := call_inv h
  have hf := gen_fine hs.1 hseat hg
  rw [gen_vals hg] at hp
  exact ⟨carried_sound hs (carried_post hf hp), post_typed ht hf hp⟩

theorem all_one {ctx ctx' : Ctx} {t : TEvent} {out : List Cmd} {strict : Bool} (h : callTranslator strict ctx t = .ok (ctx', out)) :
    translateAll strict ctx [t] = .ok (ctx', out) := by
  simp only [translateAll, h, bind, Except.bind, pure, Except.pure, List.append_nil]

theorem count_step {ctx ctx' : Ctx} {t : TEvent} {out : List Cmd} {strict : Bool} {n : Nat}
    (h : callTranslator strict ctx t = .ok (ctx', out)) (hgo : t.ev.tag ≠ "GO".toList) (hs : Sound ctx.vals)
    (hc : ctx.playerCount = .ok n) : ctx'.playerCount = .ok n := by
  have hk := Verif.Props.C81_keeps strict _ _ [t] out (all_one h) .record "player_count" (by decide +kernel) (by
      intro x hx
      refine Verif.Props.not_mayChange ["GO"] (by decide +kernel) (by decide) ?_
      simp only [List.mem_singleton] at hx
      subst hx
      simpa using hgo) .all
  unfold Ctx.playerCount at hc
  unfold IState.get at hk
  split at hc
  · cases hc
  · rename_i m hm
    rw [hm] at hk
    cases hl : ctx'.vals.lookup (Sub.all, view .record "player_count") with
    | none => rw [hl] at hk; cases hk
    | some y =>
      rw [hl] at hk
      simp only [Option.getD_some] at hk
      subst hk
      unfold Ctx.playerCount
      rw [hl]
      exact hc
  · rename_i m hm
    rcases hs.1 _ hm with h | h <;> cases h
  · cases hc

theorem TableSet.step {n w : Nat} {ctx ctx' : Ctx} {t : TEvent} {out : List Cmd} {strict : Bool} (hs : TableSet n w ctx)
    (hseat : Seated t.ev) (hgo : t.ev.tag ≠ "GO".toList) (h : callTranslator strict ctx t = .ok (ctx', out)) :
    TableSet n w ctx' := by
  obtain ⟨a, b⟩ := call_typed hs.sound hs.typed hseat h
  refine ⟨count_step h hgo hs.sound hs.count, ?_, a, b⟩
  rw [all_indexer (all_one h) (by simpa using hgo)]
  exact hs.index

theorem put_right {l : List (Int × Option Int)} {q : Int} {v : Option Int} {p : Int} (h : l.lookup p ≠ none) :
    (putKey l q v).lookup p ≠ none := by
  rw [lookup_putKey]
  split
  · simp
  · exact h

theorem handUpdate_right {ev : EventType} {u : Update} {q : Int} {raw : List Int} {ctx ctx1 : Ctx} {cs : List Cmd}
    (h : handUpdate ev u q raw ctx = .ok (ctx1, cs)) {p : Int} (hp : ctx.right.lookup p ≠ none) : ctx1.right.lookup p ≠ none := by
  unfold handUpdate at h
  cases u with
  | add =>
    match raw, h with
    | [], h => cases h
    | [x], h =>
      simp only [bind_ok, pure_ok, Prod.exists, Prod.mk.injEq] at h
      obtain ⟨_, _, _, _, _, rfl, _⟩ := h
      exact put_right hp
    | _ :: _ :: _, h => cases h
  | _ =>
    simp only [bind_ok, pure_ok, Prod.exists, Prod.mk.injEq] at h
    obtain ⟨_, _, _, _, _, rfl, _⟩ := h
    exact put_right hp

theorem gen_right {ctx ctx1 : Ctx} {e : Event} {l : List Cmd} (h : generate ctx e = .ok (ctx1, l)) {p : Int}
    (hp : ctx.right.lookup p ≠ none) : ctx1.right.lookup p ≠ none := by
  have named : ∀ {c1 l1}, translateNamed ctx e = .ok (c1, l1) → c1.right.lookup p ≠ none := by
    intro c1 l1 h
    by_cases hI : e.tag = "INIT".toList
    · rw [named_init ctx hI] at h
      obtain ⟨n, _, _, h, _⟩ := init_inv h
      rw [h]
      split
      · simp
      · exact hp
    by_cases hN : e.tag = "N".toList
    · rw [named_n ctx hN] at h
      simp only [openHandCommand, bind_ok, pure_ok, Prod.exists, Prod.mk.injEq] at h
      obtain ⟨_, _, _, _, _, _, _, _, _, _, c, l, hh, rfl, _⟩ := h
      exact handUpdate_right hh hp
    by_cases hD : e.tag = "DORA".toList
    · rw [named_dora ctx hD] at h
      simp only [doraCommand, bind_ok, pure_ok, Prod.mk.injEq] at h
      obtain ⟨_, _, _, _, rfl, _⟩ := h
      exact hp
    by_cases hA : e.tag = "AGARI".toList
    · rw [named_agari ctx hA] at h
      rw [agari_vals h]; exact hp
    · rw [(named_quiet hI hN hD hA h).2.1]; exact hp
  unfold generate at h
  simp only [bind_ok, Prod.exists] at h
  obtain ⟨a, b, h1, h⟩ := h
  have e1 := named h1
  split at h
  · simp only [pure_ok, Prod.mk.injEq] at h; rw [← h.1]; exact e1
  · simp only [bind_ok, Prod.exists] at h
    obtain ⟨c, d, h2, h⟩ := h
    have e2 : c.right.lookup p ≠ none := by
      unfold drawCommand at h2
      split at h2
      · simp only [Except.ok.injEq, Prod.mk.injEq] at h2; rw [← h2.1]; exact e1
      · exact handUpdate_right h2 e1
    split at h
    · simp only [pure_ok, Prod.mk.injEq] at h; rw [← h.1]; exact e2
    · unfold discardCommand at h
      split at h
      · simp only [Except.ok.injEq, Prod.mk.injEq] at h; rw [← h.1]; exact e2
      · simp only [bind_ok] at h
        obtain ⟨_, _, h⟩ := h
        split at h
        · cases h
        · simp only [bind_ok, pure_ok, Prod.exists, Prod.mk.injEq] at h
          obtain ⟨_, _, h3, rfl, _⟩ := h
          exact handUpdate_right h3 e2

theorem Begun.step {n : Nat} {ctx ctx' : Ctx} {t : TEvent} {out : List Cmd} {strict : Bool} (hs : Begun n ctx)
    (h : callTranslator strict ctx t = .ok (ctx', out)) : Begun n ctx' := by
  obtain ⟨ctx1, l, hg, hp, hr, _⟩ := call_inv h
  rw [gen_vals hg] at hp
  obtain ⟨i1, _⟩ := post_present hp
  refine ⟨fun p hp a ha => i1 _ (hs.player p hp a ha), i1 _ hs.dora, ?_⟩
  intro p hp
  rw [hr]
  exact gen_right hg (hs.right p hp)

end Verif.Proofs
