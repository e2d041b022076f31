import Verif.Proofs.Vocabulary
import Verif.Props.Strict

/-! Property C88: which commands an event gives, and in which order. -/
namespace Verif.Props
open Verif.Py Verif.Model Verif.Spec Verif.Proofs

theorem postprocess_stamps {ts : Option Int} {S : List Phrase} {s s' : IState} {l out : List Cmd}
    (h : postprocess ts s l = .ok (s', out)) (hv : Voc S l) : ∀ c ∈ out, c.timestamp = ts ∧ ∃ x ∈ S, Says c x := by
  induction l generalizing s out with
  | nil => simp only [postprocess, Except.ok.injEq, Prod.mk.injEq] at h; rw [← h.2]; simp
  | cons d l ih =>
    simp only [postprocess, bind_ok, pure_ok, Prod.exists, Prod.mk.injEq] at h
    obtain ⟨v, s1, _, s2, l2, h2, rfl, rfl⟩ := h
    obtain ⟨hd, hl⟩ := voc_cons.1 hv
    intro c hc
    rcases List.mem_cons.1 hc with rfl | hc
    · exact ⟨rfl, hd⟩
    · exact ih h2 hl c hc

/-- **C88.** Every command an event gives is one of the phrases of its name (property, way of updating, kind of event)
    and carries the time of the event. -/
theorem C88_phrase (strict : Bool) (ctx ctx' : Ctx) (t : TEvent) (out : List Cmd)
    (h : callTranslator strict ctx t = .ok (ctx', out)) :
    ∀ c ∈ out, c.timestamp = some (t.timestamp : Int) ∧ ∃ x ∈ phrases t.ev.tag, Says c x := by
  obtain ⟨ctx1, l, hg, hp, _⟩ := call_inv h
  exact postprocess_stamps hp (generate_voc hg)

theorem postprocess_empty {ts : Option Int} {s s' : IState} {l out : List Cmd} (h : postprocess ts s l = .ok (s', out)) :
    out = [] ↔ l = [] := by
  have := congrArg List.length (postprocess_keys h)
  simp only [List.length_map] at this
  rw [← List.length_eq_zero_iff, ← List.length_eq_zero_iff, this]

theorem call_empty {strict : Bool} {ctx ctx' : Ctx} {t : TEvent} {out : List Cmd} (hp : Peopled ctx)
    (h : callTranslator strict ctx t = .ok (ctx', out)) : out = [] ↔ Silent t.ev := by
  obtain ⟨ctx1, l, hg, hpost, _⟩ := call_inv h
  rw [postprocess_empty hpost]
  exact (gen_silent hp hg).1

/-- **C88.** The commands of a record come in the order of its events: their times never fall; every command is a phrase
    of the event of that time; and an event gives commands exactly if it says something. -/
theorem C88_order (left : Ctx → TEvent → Ctx) (strict : Bool) (ctx : Ctx) (ts : List TEvent) (o : List Cmd)
    (ho : (toCommands left strict ctx ts).2 = .ok o) (hts : ts.Pairwise (fun a b => a.timestamp < b.timestamp)) :
    o.Pairwise (fun a b => ∀ i j, a.timestamp = some i → b.timestamp = some j → i ≤ j) ∧
    (∀ c ∈ o, ∃ t ∈ ts, c.timestamp = some (t.timestamp : Int) ∧ ∃ x ∈ phrases t.ev.tag, Says c x) ∧
    (∀ t ∈ ts, (∃ c ∈ o, c.timestamp = some (t.timestamp : Int)) ↔ ¬ Silent t.ev) := by
  unfold toCommands at ho
  generalize hc : ctx.clear = c0 at ho
  have hp : Peopled c0 := by rw [← hc]; exact peopled_empty
  clear hc
  induction ts generalizing c0 o with
  | nil =>
    simp only [listAll, Except.ok.injEq] at ho
    subst ho
    simp
  | cons t ts ih =>
    rw [listAll_cons] at ho
    cases e : callTranslator strict c0 t with
    | error y => rw [e] at ho; cases ho
    | ok r =>
      obtain ⟨c1, l⟩ := r
      rw [e] at ho
      simp only at ho
      cases er : (listAll left strict c1 ts).2 with
      | error y => rw [er] at ho; cases ho
      | ok o1 =>
        rw [er] at ho
        simp only [Except.map, Except.ok.injEq] at ho
        subst ho
        obtain ⟨hlt, hts⟩ := List.pairwise_cons.1 hts
        obtain ⟨i1, i2, i3⟩ := ih o1 hts c1 er (peopled_call hp e)
        have hl := C88_phrase strict c0 c1 t l e
        have later : ∀ c ∈ o1, ∃ j : Int, c.timestamp = some j ∧ (t.timestamp : Int) < j := by
          intro c hc
          obtain ⟨u, hu, h1, _⟩ := i2 c hc
          exact ⟨_, h1, by have := hlt u hu; omega⟩
        refine ⟨List.pairwise_append.2 ⟨?_, i1, ?_⟩, ?_, ?_⟩
        · refine List.pairwise_of_forall_mem_list (fun a ha b hb i j hi hj => ?_)
          rw [(hl a ha).1] at hi
          rw [(hl b hb).1] at hj
          cases hi; cases hj; omega
        · intro a ha b hb i j hi hj
          obtain ⟨k, h1, h2⟩ := later b hb
          rw [(hl a ha).1] at hi
          rw [h1] at hj
          cases hi; cases hj; omega
        · intro c hc
          rcases List.mem_append.1 hc with hc | hc
          · exact ⟨t, by simp, hl c hc⟩
          · obtain ⟨u, hu, h⟩ := i2 c hc
            exact ⟨u, by simp [hu], h⟩
        · intro u hu
          rcases List.mem_cons.1 hu with rfl | hu
          · have key := call_empty hp e
            constructor
            · rintro ⟨c, hc, h1⟩ hs
              have hnil := key.2 hs
              subst hnil
              rw [List.nil_append] at hc
              obtain ⟨k, h2, h3⟩ := later c hc
              rw [h1] at h2
              cases h2
              omega
            · intro hs
              cases l with
              | nil => exact absurd (key.1 rfl) hs
              | cons c l => exact ⟨c, by simp, (hl c (by simp)).1⟩
          · rw [← i3 u hu]
            constructor
            · rintro ⟨c, hc, h1⟩
              rcases List.mem_append.1 hc with hc | hc
              · exfalso
                rw [(hl c hc).1] at h1
                have := hlt u hu
                injection h1 with h1
                omega
              · exact ⟨c, hc, h1⟩
            · rintro ⟨c, hc, h1⟩
              exact ⟨c, List.mem_append_right _ hc, h1⟩

/-- the phrases name existing properties, and no event has the same phrase twice -/
theorem C88_table (tag : Str) : (phrases tag).Nodup ∧ ∀ x ∈ phrases tag, x.2.1 ∈ propertyNames x.1 ∧ (x.1, x.2.1) ∈ mayChange tag := by
  have table : ∀ y ∈ namedPhrases, y.2.Nodup ∧ ∀ x ∈ y.2, x.2.1 ∈ propertyNames x.1 ∧
      (x.1, x.2.1) ∈ mayChange y.1.toList := by decide +kernel
  unfold phrases
  split
  · rename_i y hy
    have hm := List.mem_of_find?_eq_some hy
    have ht := List.find?_some hy
    simp only [decide_eq_true_eq] at ht
    rw [← ht]
    exact table y hm
  · rename_i hnone
    have hno : ∀ y ∈ namedEffects, y.1.toList ≠ tag := by
      intro y hy e
      have : ∀ y ∈ namedEffects, ∃ z ∈ namedPhrases, z.1 = y.1 := by decide +kernel
      obtain ⟨z, hz, hzy⟩ := this y hy
      have := List.find?_eq_none.1 hnone z hz
      rw [hzy] at this
      simp [e] at this
    have hmay : namedEffects.find? (fun x => decide (x.1.toList = tag)) = none := by
      rw [List.find?_eq_none]
      intro y hy
      simpa using hno y hy
    split
    · simp
    · rename_i c r
      unfold mayChange
      rw [hmay]
      simp only
      split
      · decide +kernel
      · split
        · decide +kernel
        · simp

/-- a record with a silent event between others -/
example : (([sampleGo, ⟨2, sampleAdvert.ev⟩, ⟨3, sampleNames.ev⟩] : List TEvent).Pairwise (fun a b => a.timestamp < b.timestamp)) ∧
    ((toCommands (fun c _ => c) false {} [sampleGo, ⟨2, sampleAdvert.ev⟩, ⟨3, sampleNames.ev⟩]).2.map
      (fun l => (l.map (·.timestamp)).eraseDups)) = .ok [some 0, some 3] := by decide +kernel

end Verif.Props
