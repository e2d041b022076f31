import Verif.Model.Checker
import Verif.Proofs.StateFold

/-! The loop over a game, event by event. -/
namespace Verif.Proofs
open Verif.Py Verif.Model Verif.Spec

theorem pass_ok_iff (s s' : CheckStates) (es : List Event) :
    s.pass es = .ok s' ↔ s.hand.passedEvents es = .ok s'.hand ∧ s.invisible.passedEvents es = .ok s'.invisible ∧
      s.melds.passedEvents es = .ok s'.melds := by
  unfold CheckStates.pass
  cases s' with
  | mk a b c =>
  cases h1 : s.hand.passedEvents es with
  | error e => simp [bind, Except.bind, h1]
  | ok x =>
  cases h2 : s.invisible.passedEvents es with
  | error e => simp [bind, Except.bind, h1, h2]
  | ok y =>
  cases h3 : s.melds.passedEvents es with
  | error e => simp [bind, Except.bind, h1, h2, h3]
  | ok z => simp [bind, Except.bind, pure, Except.pure, h1, h2, h3]

theorem passed_append (s : GState) (a b : List Event) :
    s.passedEvents (a ++ b) = (s.passedEvents a).bind (fun s' => s'.passedEvents b) := by
  rw [passedEvents_eq, passedEvents_eq, scanEvery_append]
  congr 1
  funext s'
  rw [passedEvents_eq]

theorem pass_append {s s1 : CheckStates} {a b : List Event} (h : s.pass a = .ok s1) (s' : CheckStates) :
    s.pass (a ++ b) = .ok s' ↔ s1.pass b = .ok s' := by
  rw [pass_ok_iff] at h
  obtain ⟨h1, h2, h3⟩ := h
  rw [pass_ok_iff, pass_ok_iff, passed_append, passed_append, passed_append, h1, h2, h3]
  rfl

/-- every beginning of the events can be passed -/
def AllPass (s : CheckStates) (es : List Event) : Prop :=
  ∀ pre post, es = pre ++ post → ∃ s', s.pass pre = .ok s'

theorem AllPass.tail {s s1 : CheckStates} {e : Event} {es : List Event} (h : AllPass s (e :: es)) (h1 : s.pass [e] = .ok s1) :
    AllPass s1 es := by
  intro pre post hp
  obtain ⟨s', hs'⟩ := h (e :: pre) post (by rw [hp]; rfl)
  have : s.pass ([e] ++ pre) = .ok s' := hs'
  exact ⟨s', (pass_append h1 s').1 this⟩

theorem AllPass.head {s : CheckStates} {e : Event} {es : List Event} (h : AllPass s (e :: es)) : ∃ s1, s.pass [e] = .ok s1 :=
  h [e] es rfl

/-- what one event yields -/
def yield1 (iter : List Int → List Int) (p : Fin 4) (richii : Bool) (s : CheckStates) (e : Event) :
    Except PyErr (List RoundReasoning) :=
  if (playerDiscard p e).isSome then do
    let r ← inGenerator (discardReasoning iter p e (handValue s.hand) (invisibleValue s.invisible) (meldsValue s.melds))
    pure [{ r with somebodyRichii := richii }]
  else pure []

/-- the loop, event by event -/
def loop1 (iter : List Int → List Int) (p : Fin 4) :
    Bool → CheckStates → List Event → Except PyErr (List RoundReasoning)
  | _, _, [] => .ok []
  | richii, s, e :: es => do
    let out ← yield1 iter p (richii || isRichii e) s e
    let s' ← s.pass [e]
    let more ← loop1 iter p (richii || isRichii e) s' es
    pure (out ++ more)

theorem groupBy_head {α κ : Type} [DecidableEq κ] (key : α → κ) (x : α) (l : List α) :
    ∃ g r, pyGroupBy key (x :: l) = (key x, x :: g) :: r := by
  simp only [pyGroupBy]
  split
  · exact ⟨[], [], rfl⟩
  · rename_i k g r h
    split
    · rename_i hk
      exact ⟨g, r, by rw [hk]⟩
    · exact ⟨[], (k, g) :: r, rfl⟩

theorem bind_nil {x : Except PyErr (List RoundReasoning)} :
    (x.bind fun more => Except.ok ([] ++ more)) = x := by
  cases x <;> rfl

theorem gameLoop_none {iter : List Int → List Int} {p : Fin 4} {richii : Bool} {s s' : CheckStates} {round : List Event}
    (rest : List (Option Nat × List Event)) (h : s.pass round = .ok s') :
    gameLoop iter p richii s ((none, round) :: rest) = gameLoop iter p (richii || round.any isRichii) s' rest := by
  simp only [gameLoop, h, bind, Except.bind, pure, Except.pure, List.nil_append]
  generalize gameLoop iter p (richii || round.any isRichii) s' rest = x
  cases x <;> rfl

theorem gameLoop_groups (iter : List Int → List Int) (p : Fin 4) (es : List Event) :
    ∀ (k : Nat) (richii : Bool) (s : CheckStates), AllPass s es →
      gameLoop iter p richii s ((pyGroupBy (discardKey p) (es.zipIdx k)).map (fun g => (g.1, g.2.map (fun x => x.1)))) =
        loop1 iter p richii s es := by
  induction es with
  | nil => intro k richii s _; rfl
  | cons e es ih =>
    intro k richii s hp
    obtain ⟨s1, hs1⟩ := hp.head
    have ih1 := ih (k + 1) (richii || isRichii e) s1 (hp.tail hs1)
    rw [List.zipIdx_cons]
    by_cases hd : (playerDiscard p e).isSome = true
    · have hkey : discardKey p (e, k) = some k := by simp [discardKey, hd]
      have hg : pyGroupBy (discardKey p) ((e, k) :: es.zipIdx (k + 1)) =
          (some k, [(e, k)]) :: pyGroupBy (discardKey p) (es.zipIdx (k + 1)) := by
        cases hes : es.zipIdx (k + 1) with
        | nil => simp [pyGroupBy, hkey]
        | cons x l =>
          obtain ⟨g, r, hgr⟩ := groupBy_head (discardKey p) x l
          have hx : k + 1 ≤ x.2 := by
            have : x ∈ es.zipIdx (k + 1) := by rw [hes]; simp
            exact (List.le_snd_of_mem_zipIdx this)
          have hne : ¬ (discardKey p (e, k) = discardKey p x) := by
            rw [hkey]
            unfold discardKey
            split
            · intro h; injection h; omega
            · simp
          rw [pyGroupBy, hgr]
          simp only
          rw [if_neg hne, hkey]
      rw [hg]
      simp only [List.map_cons, List.map_nil, gameLoop, loop1, yield1, hd, if_true, List.any_cons, List.any_nil, Bool.or_false]
      have hidx : pyIdx [e] 0 = .ok e := rfl
      simp only [bind, Except.bind, hidx, hs1, ih1]
      generalize inGenerator (discardReasoning iter p e (handValue s.hand) (invisibleValue s.invisible) (meldsValue s.melds)) = x
      cases x <;> rfl
    · have hkey : discardKey p (e, k) = none := by simp [discardKey, hd]
      have hl1 : loop1 iter p richii s (e :: es) = loop1 iter p (richii || isRichii e) s1 es := by
        simp only [loop1, yield1, hd, hs1, bind, pure, Except.pure]
        simp only [Bool.false_eq_true, if_false, Except.bind]
        generalize loop1 iter p (richii || isRichii e) s1 es = x
        cases x <;> rfl
      rw [hl1, ← ih1]
      cases hes : pyGroupBy (discardKey p) (es.zipIdx (k + 1)) with
      | nil =>
        rw [pyGroupBy, hes]
        simp only [hkey, List.map_cons, List.map_nil, gameLoop, hs1, bind, Except.bind, pure, Except.pure]
        simp
      | cons g r =>
        obtain ⟨gk, gl⟩ := g
        rw [pyGroupBy, hes]
        simp only [hkey]
        by_cases hk : (none : Option Nat) = gk
        · subst hk
          rw [if_pos rfl]
          simp only [List.map_cons]
          have hpre : ∃ post, es = gl.map (fun x => x.1) ++ post := by
            have hflat : ∀ (l : List (Event × Nat)) (g : Option Nat × List (Event × Nat)) (r : List (Option Nat × List (Event × Nat))),
                pyGroupBy (discardKey p) l = g :: r → ∃ post, l = g.2 ++ post := by
              intro l
              induction l with
              | nil => intro g r h; simp [pyGroupBy] at h
              | cons x l ihl =>
                intro g r h
                simp only [pyGroupBy] at h
                split at h
                · rename_i hnil
                  cases h
                  exact ⟨l, rfl⟩
                · rename_i k' g' r' hcons
                  split at h
                  · cases h
                    obtain ⟨post, hp'⟩ := ihl _ _ hcons
                    exact ⟨post, by simp at hp' ⊢; exact hp'⟩
                  · cases h
                    exact ⟨l, rfl⟩
            obtain ⟨post, hp'⟩ := hflat _ _ _ hes
            refine ⟨post.map (fun x => x.1), ?_⟩
            have := congrArg (List.map (fun x : Event × Nat => x.1)) hp'
            simpa using this
          obtain ⟨post, hpost⟩ := hpre
          obtain ⟨s2, hs2⟩ := (hp.tail hs1) (gl.map (fun x => x.1)) post hpost
          have hs2' : s.pass (e :: gl.map (fun x => x.1)) = .ok s2 := by
            have := (pass_append (b := gl.map (fun x => x.1)) hs1 s2).2 hs2
            exact this
          rw [gameLoop_none _ hs2, gameLoop_none _ hs2', List.any_cons, Bool.or_assoc]
        · rw [if_neg hk, List.map_cons, List.map_cons, List.map_nil, gameLoop_none _ hs1]
          simp

end Verif.Proofs
