import Verif.Props.Csv
import Verif.Props.Header
import Verif.Props.Executor

/-! Lemmas for C102: commands read from a file, executed again. -/
namespace Verif.Proofs
open Verif.Py Verif.Model Verif.Spec

/-- the same values, texts aside -/
def SameBut (s s' : IState) : Prop := ∀ sub v, ¬ HasKind v .text → s.lookup (sub, v) = s'.lookup (sub, v)

theorem text_names : ∀ r ∈ kindTable, r.2.2 = .text → r.2.1 ≠ "player_count" ∧ r.2.1 ≠ "hand" := by decide +kernel

theorem fine_readAs {sh : Val → Str} {c c' : Cmd} (hf : Fine c) (h : ReadAs sh c c') (st : Val) : Fine { c' with state := st } := by
  obtain ⟨hv, s, n, k, hm, hp, hs, hsub⟩ := hf
  by_cases ht : k = .text
  · subst ht
    have hk : HasKind c.prop .text := ⟨s, n, hm, hp⟩
    obtain ⟨⟨x, hx⟩, _⟩ := h.texts hk
    obtain ⟨n1, n2⟩ := text_names _ hm rfl
    refine ⟨by show ValOk c'.value; rw [hx]; trivial, s, n, .text, hm, by rw [← hp]; exact h.prop, ?_, by rw [← h.sub] at hsub; exact hsub⟩
    refine ⟨fun _ => ⟨?_, fun _ => ⟨x, hx⟩⟩, fun e => absurd e n1, fun e => absurd e n2, (fun _ e => by cases e), (fun e => by cases e), (fun e => by rcases e with e | e <;> cases e)⟩
    show c'.update = _ ∨ c'.update = _
    rw [h.update]
    exact (hs.1 rfl).1
  · have hk : ¬ HasKind c.prop .text := fun hk => ht (kind_unique ⟨s, n, hm, hp⟩ hk)
    obtain ⟨e1, _⟩ := h.exact hk
    refine ⟨by show ValOk c'.value; rw [e1]; exact hv, s, n, k, hm, by rw [← hp]; exact h.prop, ?_, by rw [← h.sub] at hsub; exact hsub⟩
    show Shape n k c'.update c'.value
    rw [e1, h.update]
    exact hs

theorem newValue_state (c : Cmd) (st old : Val) : newValue { c with state := st } old = newValue c old := rfl

/-- one command -/
theorem interpret_readAs {sh : Val → Str} {c c' : Cmd} (hf : Fine c) (h : ReadAs sh c c') {s s' s1 : IState} (e : SameBut s s')
    (hi : interpret s c = .ok (c.state, s1)) :
    ∃ v s1', interpret s' c' = .ok (v, s1') ∧ SameBut s1 s1' ∧ (¬ HasKind c.prop .text → v = c.state) := by
  simp only [interpret, bind_ok, pure_ok, Prod.mk.injEq] at hi
  obtain ⟨x, hx, hxs, rfl⟩ := hi
  subst hxs
  obtain ⟨hv, sc, n, k, hm, hp, hs, hsub⟩ := hf
  have set_same : ∀ y, (¬ HasKind c.prop .text → y = c.state) →
      SameBut (s.set (c.sub, c.prop) c.state) (s'.set (c'.sub, c'.prop) y) := by
    intro y hy sub v hv
    rw [h.sub, h.prop, lookup_iset, lookup_iset]
    split
    · next hk => cases hk; rw [hy hv]
    · exact e sub v hv
  by_cases ht : k = .text
  · subst ht
    have hk : HasKind c.prop .text := ⟨sc, n, hm, hp⟩
    have hy : newValue c' (s'.get (c'.sub, c'.prop)) = .ok c'.value := by
      unfold newValue
      rcases (hs.1 rfl).1 with hu | hu <;> rw [h.update, hu]
    refine ⟨c'.value, s'.set (c'.sub, c'.prop) c'.value, ?_, set_same _ (fun hn => absurd hk hn), fun hn => absurd hk hn⟩
    rw [interpret, hy]; rfl
  · have hk : ¬ HasKind c.prop .text := fun hk => ht (kind_unique ⟨sc, n, hm, hp⟩ hk)
    obtain ⟨e1, e2⟩ := h.exact hk
    have hold : s'.get (c'.sub, c'.prop) = s.get (c.sub, c.prop) := by
      unfold IState.get
      rw [h.sub, h.prop, e c.sub c.prop hk]
    have hy : newValue c' (s'.get (c'.sub, c'.prop)) = .ok c.state := by
      rw [hold, ← hx]
      unfold newValue
      rw [h.update, h.prop, e1]
    refine ⟨c.state, s'.set (c'.sub, c'.prop) c.state, ?_, set_same _ (fun _ => rfl), fun _ => rfl⟩
    rw [interpret, hy]; rfl

/-- all commands -/
theorem carried_readAs {sh : Val → Str} {cs cs' : List Cmd} (h : List.Forall₂ (ReadAs sh) cs cs') :
    ∀ {s s' t : IState}, SameBut s s' → Carried s cs t →
    ∃ cs'' t', Carried s' cs'' t' ∧ List.Forall₂ (fun c c' => ∃ st, c' = { c with state := st }) cs' cs'' ∧ SameBut t t' := by
  induction h with
  | nil => intro s s' t e hc; cases hc; exact ⟨[], s', rfl, .nil, e⟩
  | cons r _ ih =>
    intro s s' t e hc
    rename_i c c' _ _ _
    obtain ⟨hf, s1, hi, hr⟩ := hc
    obtain ⟨v, s1', g1, g2, _⟩ := interpret_readAs hf r e hi
    obtain ⟨cs'', t', h1, h2, h3⟩ := ih g2 hr
    refine ⟨{ c' with state := v } :: cs'', t', ⟨fine_readAs hf r v, s1', ?_, h1⟩, .cons ⟨v, rfl⟩ h2, h3⟩
    exact g1

theorem executeFrom_state {cs cs'' : List Cmd} (h : List.Forall₂ (fun c c' => ∃ st, c' = { c with state := st }) cs cs'') (strict : Bool) :
    ∀ d, executeFrom strict d cs'' = executeFrom strict d cs := by
  induction h with
  | nil => intro d; rfl
  | cons r _ ih =>
    intro d
    obtain ⟨st, rfl⟩ := r
    rename_i c _ _ _
    rw [executeFrom, executeFrom]
    rw [show executeUpdate strict { c with state := st } d = executeUpdate strict c d from rfl]
    cases executeUpdate strict c d with
    | error x => rfl
    | ok d1 =>
      have hs : stamped d1 { c with state := st } = stamped d1 c := rfl
      dsimp only
      rw [hs, ih]

theorem forall2_take {α β : Type} {R : α → β → Prop} {l m} (h : List.Forall₂ R l m) (k : Nat) : List.Forall₂ R (l.take k) (m.take k) := by
  induction h generalizing k with
  | nil => simp
  | cons a _ ih =>
    cases k with
    | zero => simp
    | succ k => exact .cons a (ih k)

theorem carried_prefix {s t : IState} {cs : List Cmd} (h : Carried s cs t) (k : Nat) :
    ∃ u, Carried s (cs.take k) u ∧ interpretAll s (cs.take k) = .ok u := by
  induction cs generalizing s k with
  | nil => exact ⟨s, by simp [Carried], by simp [interpretAll]⟩
  | cons c cs ih =>
    cases k with
    | zero => exact ⟨s, rfl, rfl⟩
    | succ k =>
      obtain ⟨hf, s1, hi, hr⟩ := h
      obtain ⟨u, h1, h2⟩ := ih hr k
      refine ⟨u, ⟨hf, s1, hi, h1⟩, ?_⟩
      rw [List.take_succ_cons, interpretAll, hi]
      exact h2

theorem carried_interprets {s t : IState} {cs : List Cmd} (h : Carried s cs t) : interpretAll s cs = .ok t := by
  induction cs generalizing s with
  | nil => cases h; rfl
  | cons c cs ih =>
    obtain ⟨hf, s1, hi, hr⟩ := h
    rw [interpretAll, hi]
    exact ih hr

/-- the states of the record and the states of the file -/
theorem replayed {sh : Val → Str} {cs cs' : List Cmd} (h : List.Forall₂ (ReadAs sh) cs cs') {t : IState} (hc : Carried [] cs t) :
    (execute false cs').2 = none ∧ (execute false cs').1.length = cs.length ∧
    ∀ (k : Nat) y' c, (execute false cs').1[k]? = some y' → cs[k]? = some c →
      reads (.node y'.kids) [.text "global".toList, .text "time".toList, .text "timestamp".toList] = some (.leaf (timeLeaf c.timestamp)) ∧
      ∃ s, interpretAll [] (cs.take (k + 1)) = .ok s ∧ ∀ v, ¬ HasKind v .text →
      (v.scope = .game ∨ v.scope = .record → reads (.node y'.kids) [.scope v.scope, .text "single".toList, .prop v] =
        (s.lookup (Sub.all, v)).map Tree.leaf) ∧
      (∀ p : Fin 4, v.scope = .player → reads (.node y'.kids) [.scope .player, .player p, .prop v] =
        (s.lookup (.num (p.val : Int), v)).map Tree.leaf) := by
  obtain ⟨cs'', t', h1, h2, _⟩ := carried_readAs h (fun _ _ _ => rfl : SameBut [] []) hc
  have ex : execute false cs' = execute false cs'' := (executeFrom_state h2 false initialTree).symm
  obtain ⟨r1, r2⟩ := carried_run h1
  have hl1 := h.length_eq
  have hl2 := h2.length_eq
  rw [ex]
  refine ⟨r1, by rw [r2, ← hl2, ← hl1], ?_⟩
  intro k y' c hy hcc
  have hf := carried_fines h1
  obtain ⟨c2, s2, a1, a2, a3, a4, a5, a6⟩ := Verif.Props.C43_states false cs'' (fun c hc => (hf c hc).addressed) k y' hy
  have hts : c2.timestamp = c.timestamp := by
    have := List.forall₂_iff_get.1 h2
    have hk2 := (List.getElem?_eq_some_iff.1 a1)
    have hk1 := (List.getElem?_eq_some_iff.1 hcc)
    obtain ⟨i1, e1⟩ := hk1
    obtain ⟨i2, e2⟩ := hk2
    obtain ⟨st, e3⟩ := this.2 k (by omega) i2
    have e4 := (List.forall₂_iff_get.1 h).2 k i1 (by omega)
    simp only [List.get_eq_getElem] at e3 e4
    rw [← e2, e3, ← e1]
    exact e4.timestamp
  obtain ⟨u, u1, u2⟩ := carried_prefix hc (k + 1)
  obtain ⟨ds, u', w1, w2, w3⟩ := carried_readAs (forall2_take h (k + 1)) (fun _ _ _ => rfl : SameBut [] []) u1
  have same : SameBut u s2 := by
    -- the interpreter does not look at states
    have aux : ∀ {ds es : List Cmd}, List.Forall₂ (fun c c' => ∃ st, c' = { c with state := st }) ds es → ∀ s, interpretAll s es = interpretAll s ds := by
      intro ds es hh
      induction hh with
      | nil => intro s; rfl
      | cons r _ ih =>
        intro s
        obtain ⟨st, rfl⟩ := r
        rename_i c _ _ _
        rw [interpretAll, interpretAll, show interpret s { c with state := st } = interpret s c from rfl]
        cases interpret s c with
        | error x => rfl
        | ok x => exact ih _
    have q1 := aux w2 []
    have q2 := aux (forall2_take h2 (k + 1)) []
    rw [carried_interprets w1] at q1
    rw [a2, ← q1] at q2
    cases q2
    exact w3
  refine ⟨by rw [a3, hts], u, u2, ?_⟩
  intro v hv
  refine ⟨?_, ?_⟩
  · rintro (hs | hs)
    · rw [hs, a4 v hs, same _ _ hv]
    · rw [hs, a5 v hs, same _ _ hv]
  · intro p hs
    rw [a6 v p hs, same _ _ hv]

/-- lists and iterators translate alike -/
theorem listAll_translateAll (left : Ctx → TEvent → Ctx) (strict : Bool) {ts : List TEvent} : ∀ {ctx : Ctx} {cs : List Cmd},
    (listAll left strict ctx ts).2 = .ok cs → ∃ ctx', translateAll strict ctx ts = .ok (ctx', cs) := by
  induction ts with
  | nil => intro ctx cs h; simp only [listAll, Except.ok.injEq] at h; subst h; exact ⟨ctx, rfl⟩
  | cons t ts ih =>
    intro ctx cs h
    simp only [listAll] at h
    split at h
    · cases h
    · rename_i ctx1 l hcall
      split at h
      · rename_i c2 r hr
        simp only [Except.ok.injEq] at h
        subst h
        obtain ⟨c3, h3⟩ := ih (ctx := ctx1) (cs := r) (by rw [hr])
        refine ⟨c3, ?_⟩
        rw [translateAll, hcall]
        simp only [bind, Except.bind, h3, pure, Except.pure]
      · cases h

theorem postprocess_interprets {ts : Option Int} {s s' : IState} {cs out : List Cmd} (h : postprocess ts s cs = .ok (s', out)) :
    interpretAll s out = .ok s' := by
  induction cs generalizing s out with
  | nil => simp only [postprocess, Except.ok.injEq, Prod.mk.injEq] at h; obtain ⟨rfl, rfl⟩ := h; rfl
  | cons c cs ih =>
    simp only [postprocess, bind_ok, pure_ok] at h
    obtain ⟨⟨v, s1⟩, h1, ⟨s2, l⟩, h2, h3⟩ := h
    simp only [Prod.mk.injEq] at h3
    obtain ⟨rfl, rfl⟩ := h3
    rw [interpretAll]
    show (interpret s c >>= _) = _
    rw [h1]
    exact ih h2

/-- the interpreter of the translator is the interpreter of the commands -/
theorem translateAll_interprets {strict : Bool} {ts : List TEvent} : ∀ {ctx ctx' : Ctx} {out : List Cmd},
    translateAll strict ctx ts = .ok (ctx', out) → interpretAll ctx.vals out = .ok ctx'.vals := by
  induction ts with
  | nil => intro ctx ctx' out h; simp only [translateAll, Except.ok.injEq, Prod.mk.injEq] at h; obtain ⟨rfl, rfl⟩ := h; rfl
  | cons t ts ih =>
    intro ctx ctx' out h
    simp only [translateAll, bind_ok, pure_ok, Prod.exists, Prod.mk.injEq] at h
    obtain ⟨c1, l1, h1, c2, l2, h2, rfl, rfl⟩ := h
    obtain ⟨c0, gl, hg, hp, _, _⟩ := call_inv h1
    rw [gen_vals hg] at hp
    rw [interpretAll_append, postprocess_interprets hp]
    exact ih h2

end Verif.Proofs
