import Verif.Proofs.Strict
import Verif.Proofs.Process

/-! Property C87: what strict conversion refuses. -/
namespace Verif.Props
open Verif.Py Verif.Model Verif.Spec Verif.Proofs

theorem call_strict {ctx : Ctx} {t : TEvent} (hp : Peopled ctx) (hs : ¬ Silent t.ev) :
    callTranslator true ctx t = callTranslator false ctx t := by
  unfold callTranslator
  cases e : generate ctx t.ev with
  | error x => rfl
  | ok r =>
    obtain ⟨c, l⟩ := r
    have hl : l ≠ [] := fun h => hs ((gen_silent hp e).1.1 h)
    simp [bind, Except.bind, hl]

theorem call_silent {ctx ctx' : Ctx} {t : TEvent} {out : List Cmd} (hp : Peopled ctx) (hs : Silent t.ev)
    (h : callTranslator false ctx t = .ok (ctx', out)) :
    out = [] ∧ ctx' = ctx ∧ callTranslator true ctx t = .error .valueError := by
  unfold callTranslator at h ⊢
  cases e : generate ctx t.ev with
  | error x => rw [e] at h; cases h
  | ok r =>
    obtain ⟨c, l⟩ := r
    have hl : l = [] := (gen_silent hp e).1.2 hs
    have hc := (gen_silent hp e).2 hl
    subst hl hc
    rw [e] at h
    simp only [bind, Except.bind, ne_eq, not_true_eq_false, if_false, Bool.false_eq_true, pure, Except.pure, Except.ok.injEq,
      Prod.mk.injEq] at h
    obtain ⟨rfl, rfl⟩ := h
    exact ⟨rfl, rfl, rfl⟩

theorem listAll_cons (left : Ctx → TEvent → Ctx) (strict : Bool) (ctx : Ctx) (t : TEvent) (ts : List TEvent) :
    (listAll left strict ctx (t :: ts)).2 = match callTranslator strict ctx t with
      | .error x => .error x
      | .ok (ctx1, l) => (listAll left strict ctx1 ts).2.map (fun r => l ++ r) := by
  rw [listAll]
  cases callTranslator strict ctx t with
  | error x => rfl
  | ok r =>
    obtain ⟨c, l⟩ := r
    simp only
    cases listAll left strict c ts with
    | mk c2 r => cases r <;> rfl

/-- **C87.** If every event of a record says something the converter knows, strict conversion does just what lenient
    conversion does: the same commands, the same exception. -/
theorem C87_same (left : Ctx → TEvent → Ctx) (ctx : Ctx) (ts : List TEvent) (h : ∀ t ∈ ts, ¬ Silent t.ev) :
    (toCommands left true ctx ts).2 = (toCommands left false ctx ts).2 := by
  unfold toCommands
  have : ∀ c, Peopled c → (listAll left true c ts).2 = (listAll left false c ts).2 := by
    induction ts with
    | nil => intro c _; rfl
    | cons t ts ih =>
      intro c hp
      rw [listAll_cons, listAll_cons, call_strict hp (h t (by simp))]
      cases e : callTranslator false c t with
      | error x => rfl
      | ok r =>
        obtain ⟨c1, l⟩ := r
        simp only
        rw [ih (fun x hx => h x (by simp [hx])) c1 (peopled_call hp e)]
  exact this _ peopled_empty

/-- **C87.** If some event says nothing, strict conversion of a record that converts otherwise raises `ValueError`. -/
theorem C87_refuses (left : Ctx → TEvent → Ctx) (ctx : Ctx) (ts : List TEvent) (o : List Cmd)
    (ho : (toCommands left false ctx ts).2 = .ok o) (t : TEvent) (ht : t ∈ ts) (h : Silent t.ev) :
    (toCommands left true ctx ts).2 = .error .valueError := by
  unfold toCommands at *
  have : ∀ c o, Peopled c → (listAll left false c ts).2 = .ok o → (listAll left true c ts).2 = .error .valueError := by
    clear ho
    induction ts with
    | nil => cases ht
    | cons x ts ih =>
      intro c o hp ho
      rw [listAll_cons] at ho ⊢
      cases e : callTranslator false c x with
      | error y => rw [e] at ho; cases ho
      | ok r =>
        obtain ⟨c1, l⟩ := r
        rw [e] at ho
        simp only at ho
        by_cases hx : Silent x.ev
        · rw [(call_silent hp hx e).2.2]
        · rw [call_strict hp hx, e]
          have hm : t ∈ ts := by
            rcases List.mem_cons.1 ht with rfl | hm
            · exact absurd h hx
            · exact hm
          cases er : (listAll left false c1 ts).2 with
          | error y => rw [er] at ho; cases ho
          | ok o1 =>
            simp only
            rw [ih hm c1 o1 (peopled_call hp e) er]
            rfl
  exact this _ _ peopled_empty ho

/-- **C87.** Lenient conversion skips what says nothing: without such an event the commands are the same. -/
theorem C87_skips (left : Ctx → TEvent → Ctx) (ctx : Ctx) (pre post : List TEvent) (t : TEvent) (o : List Cmd)
    (ho : (toCommands left false ctx (pre ++ t :: post)).2 = .ok o) (h : Silent t.ev) :
    (toCommands left false ctx (pre ++ post)).2 = .ok o := by
  unfold toCommands at *
  have : ∀ c o, Peopled c → (listAll left false c (pre ++ t :: post)).2 = .ok o → (listAll left false c (pre ++ post)).2 = .ok o := by
    clear ho
    induction pre with
    | nil =>
      intro c o hp ho
      rw [List.nil_append, listAll_cons] at ho
      cases e : callTranslator false c t with
      | error y => rw [e] at ho; cases ho
      | ok r =>
        obtain ⟨c1, l⟩ := r
        rw [e] at ho
        obtain ⟨rfl, rfl, _⟩ := call_silent hp h e
        rw [List.nil_append]
        cases er : (listAll left false c1 post).2 with
        | error y => simp only [er] at ho; cases ho
        | ok o1 => simp only [er] at ho; exact ho
    | cons x pre ih =>
      intro c o hp ho
      rw [List.cons_append, listAll_cons] at ho ⊢
      cases e : callTranslator false c x with
      | error y => rw [e] at ho; cases ho
      | ok r =>
        obtain ⟨c1, l⟩ := r
        rw [e] at ho
        simp only at ho ⊢
        cases er : (listAll left false c1 (pre ++ t :: post)).2 with
        | error y => rw [er] at ho; cases ho
        | ok o1 =>
          rw [ih c1 o1 (peopled_call hp e) er]
          rw [er] at ho
          exact ho
  exact this _ _ peopled_empty ho

/-- **C87.** An element of unknown name never raises in lenient conversion, whatever it contains. -/
theorem C87_unknown (left : Ctx → TEvent → Ctx) (ctx : Ctx) (pre post : List TEvent) (t : TEvent) (h : Unknown t.ev) :
    (toCommands left false ctx (pre ++ t :: post)).2 = (toCommands left false ctx (pre ++ post)).2 := by
  unfold toCommands
  generalize ctx.clear = c
  induction pre generalizing c with
  | nil =>
    rw [List.nil_append, List.nil_append, listAll_cons]
    have : callTranslator false c t = .ok (c, []) := by
      unfold callTranslator
      rw [unknown_gen h]
      rfl
    rw [this]
    simp only
    cases (listAll left false c post).2 <;> rfl
  | cons x pre ih =>
    rw [List.cons_append, List.cons_append, listAll_cons, listAll_cons]
    cases callTranslator false c x with
    | error y => rfl
    | ok r =>
      obtain ⟨c1, l⟩ := r
      simp only
      rw [ih c1]

/-- a record with an advertisement in it -/
def sampleAdvert : TEvent := ⟨7, ⟨"SPONSOR".toList, [("url".toList, "x".toList)]⟩⟩

example : Unknown sampleAdvert.ev := by
  refine ⟨by decide, ?_, ?_⟩ <;>
  · rintro c n ⟨hc, ds, ⟨hne, hd⟩, _, h | h⟩ <;> cases ds with
    | nil => exact hne rfl
    | cons d r =>
      simp only [sampleAdvert, List.cons_append] at h
      have h2 := congrArg (fun l => l.getD 1 ' ') h
      have : d = 'P' := by simpa using h2.symm
      subst this
      exact absurd (hd 'P' (by simp)) (by decide)

example : ((toCommands (fun c _ => c) false {} [sampleGo, sampleAdvert, sampleNames]).2.map (fun l => l.length)) =
    ((toCommands (fun c _ => c) false {} [sampleGo, sampleNames]).2.map (fun l => l.length)) ∧
    (toCommands (fun c _ => c) true {} [sampleGo, sampleAdvert, sampleNames]).2 = .error .valueError ∧
    (toCommands (fun c _ => c) true {} [sampleGo, sampleNames]).2.isOk = true := by decide +kernel

/-- a riichi of step 3, and an `UN` that names nobody, say nothing -/
example : Silent ⟨"REACH".toList, [("who".toList, "1".toList), ("step".toList, "3".toList)]⟩ ∧
    Silent ⟨"UN".toList, [("sx".toList, "M,M,M,M".toList)]⟩ := by
  refine ⟨.inr (.inl ⟨rfl, by decide, by decide⟩), .inr (.inr ⟨rfl, ?_⟩)⟩
  rintro p hp ⟨_, name, hn, _⟩
  have : ∀ p < 4, List.lookup ("n".toList ++ natDigits p) [("sx".toList, "M,M,M,M".toList)] = none := by decide +kernel
  rw [this p hp] at hn
  cases hn

end Verif.Props
