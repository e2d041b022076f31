import Verif.Proofs.Dispatch

/-! Property C66: which handler translates an event. -/
namespace Verif.Props
open Verif.Py Verif.Model Verif.Spec Verif.Proofs

variable {σ γ : Type}

/-- **C66.** For any registrations and any event, the commands are those of the first handler that gives any,
    asked in this order, each group in the order of registration: for every attribute of the event (in
    document order) the handlers of the combination — with tag and attribute swapped, see
    `C66_both_is_swapped` —, the handlers of the tag, for every attribute the handlers of that attribute, the
    default handlers.  Later handlers are not asked, and an exception of an asked handler is the outcome. -/
theorem C66_first_handler (regs : List (Reg σ γ)) (e : Event) (s : σ) (r : Except PyErr (σ × List γ)) :
    (Registry.ofRegs regs).commands e s = r ↔
      Asked e ((e.attrib.map Prod.fst).flatMap (fun a => forBoth regs a e.tag) ++ forTag regs e.tag ++
        (e.attrib.map Prod.fst).flatMap (fun a => forAttr regs a) ++ forAny regs) s r := by
  rw [asked_iff, commands_eq]

/-- **C66, disagreement.** A handler registered with `match_both(name=n, attr=a)` and nothing else is asked for an
    event exactly when the event's tag is `a` and it has an attribute called `n`: for the events it was
    registered for (tag `n`, attribute `a`) it is never asked unless those names coincide. -/
theorem C66_both_is_swapped (n a : Str) (f : Handler σ γ) (e : Event) (s : σ) :
    (e.tag = a ∧ n ∈ e.attrib.map Prod.fst → ∀ r, f s e = r → (∀ s', r ≠ .ok (s', [])) →
      (Registry.ofRegs [.both n a f]).commands e s = r) ∧
    (¬ (e.tag = a ∧ n ∈ e.attrib.map Prod.fst) → (Registry.ofRegs [.both n a f]).commands e s = .ok (s, [])) := by
  have h1 : forTag [Reg.both n a f] e.tag = [] := rfl
  have h2 : (e.attrib.map Prod.fst).flatMap (fun b => forAttr [Reg.both n a f] b) = [] := by
    rw [List.flatMap_eq_nil_iff]; intros; rfl
  have h3 : forAny [Reg.both n a f] = [] := rfl
  rw [commands_eq, h1, h2, h3, List.append_nil, List.append_nil, List.append_nil]
  constructor
  · rintro ⟨rfl, hn⟩ r hr hne
    generalize e.attrib.map Prod.fst = l at *
    clear h2
    induction l with
    | nil => simp at hn
    | cons b l ih =>
      by_cases h : n = b
      · subst h
        simp only [List.flatMap_cons, forBoth, List.flatMap_nil, and_self, if_true, List.cons_append, fallbackCall, hr]
        cases r with
        | error x => rfl
        | ok p =>
          obtain ⟨s', v⟩ := p
          cases v with
          | nil => exact absurd rfl (hne s')
          | cons c cs => rfl
      · have : forBoth [Reg.both n e.tag f] b e.tag = [] := by simp [forBoth, h]
        rw [List.flatMap_cons, this]
        exact ih (by rcases List.mem_cons.1 hn with h' | h'; exact absurd h' h; exact h')
  · intro hno
    have h0 : (e.attrib.map Prod.fst).flatMap (fun b => forBoth [Reg.both n a f] b e.tag) = [] := by
      rw [List.flatMap_eq_nil_iff]
      intro b hb
      simp only [forBoth, List.flatMap_cons, List.flatMap_nil, List.append_nil]
      rw [if_neg]
      rintro ⟨rfl, rfl⟩
      exact hno ⟨rfl, hb⟩
    rw [h0]; rfl

/-- **C66.** The translator of Tenhou records, with the registrations of its module, asks the one handler of the tag
    if there is one, then the draw handler, then the discard handler: its commands are those used in
    C47–C53. -/
theorem C66_tenhou (e : Event) (ctx : Ctx) :
    (Registry.ofRegs tenhouRegs).commands e ctx = generate ctx e := by
  have hboth : (e.attrib.map Prod.fst).flatMap (fun a => forBoth tenhouRegs a e.tag) = [] := by
    simp [forBoth, tenhouRegs]
  have hattr : (e.attrib.map Prod.fst).flatMap (fun a => forAttr tenhouRegs a) = [] := by
    simp [forAttr, tenhouRegs]
  have hany : forAny tenhouRegs = [drawCommand, discardCommand] := rfl
  have htag : fallbackCall e (forTag tenhouRegs e.tag) ctx = translateNamed ctx e := by
    have one : ∀ f : Handler Ctx Cmd, fallbackCall e [f] ctx = f ctx e := by
      intro f
      simp only [fallbackCall]
      cases f ctx e with
      | error x => rfl
      | ok p => obtain ⟨s, v⟩ := p; cases v <;> rfl
    unfold translateNamed
    by_cases hx : ∃ h ∈ nameMatch, h.1.toList = e.tag
    · obtain ⟨h, hm, ht⟩ := hx
      simp only [nameMatch, List.mem_cons, List.not_mem_nil, or_false] at hm
      rcases hm with rfl | rfl | rfl | rfl | rfl | rfl | rfl | rfl | rfl | rfl | rfl <;>
        (rw [← ht]; exact one _)
    · have hno : ∀ h ∈ nameMatch, ¬ h.1.toList = e.tag := fun h hm he => hx ⟨h, hm, he⟩
      rw [List.find?_eq_none.2 (by simpa using fun a b hm => hno (a, b) hm)]
      have : forTag tenhouRegs e.tag = [] := by
        simp only [nameMatch, List.forall_mem_cons] at hno
        obtain ⟨n1, n2, n3, n4, n5, n6, n7, n8, n9, n10, n11, _⟩ := hno
        simp only [forTag, tenhouRegs, List.flatMap_cons, List.flatMap_nil, if_neg n1, if_neg n2, if_neg n3, if_neg n4,
          if_neg n5, if_neg n6, if_neg n7, if_neg n8, if_neg n9, if_neg n10, if_neg n11, List.append_nil]
      rw [this]; rfl
  rw [commands_eq, hboth, hattr, hany, List.nil_append, List.append_nil, fallback_append, htag]
  unfold generate
  simp only [bind, Except.bind]
  cases translateNamed ctx e with
  | error x => rfl
  | ok p =>
    obtain ⟨s, v⟩ := p
    cases v with
    | cons c cs => rfl
    | nil =>
      simp only [List.isEmpty_nil, if_true, fallbackCall, ne_eq, not_true, if_false]
      cases drawCommand s e with
      | error x => rfl
      | ok p =>
        obtain ⟨s, v⟩ := p
        cases v with
        | cons c cs => rfl
        | nil =>
          simp only [List.isEmpty_nil, if_true, not_true, if_false]
          cases discardCommand s e with
          | error x => rfl
          | ok p => obtain ⟨s, v⟩ := p; cases v <;> rfl

/-- instance: three registrations, the first of which passes; the attribute handler is asked last. -/
example : (Registry.ofRegs [.attr "m".toList (fun s _ => .ok (s, [3])), .name "N".toList (fun s _ => .ok (s + 1, [])),
      .names ["A".toList, "N".toList] (fun s _ => .ok (s, [s]))] : Registry Nat Nat).commands
      ⟨"N".toList, [("m".toList, "5".toList)]⟩ 7 = .ok (8, [8]) := by rfl

end Verif.Props
