import Verif.Spec.Dispatch

namespace Verif.Proofs
open Verif.Py Verif.Model Verif.Spec

variable {σ γ : Type}

/-- what a multi-dictionary holds for a key -/
def held {κ β : Type} [DecidableEq κ] (d : List (κ × List β)) (k : κ) : List β := (multiGet d k).getD []

theorem held_append {κ β : Type} [DecidableEq κ] (d : List (κ × List β)) (k k' : κ) (f : β) :
    held (multiAppend d k f) k' = held d k' ++ (if k = k' then [f] else []) := by
  unfold held
  induction d with
  | nil =>
    by_cases h : k = k' <;> simp [multiAppend, multiGet, h]
  | cons p d ih =>
    obtain ⟨a, fs⟩ := p
    by_cases h : a = k
    · subst h
      by_cases h2 : a = k' <;> simp [multiAppend, multiGet, h2]
    · by_cases h2 : a = k'
      · subst h2
        have : ¬ k = a := fun e => h e.symm
        simp [multiAppend, multiGet, h, this]
      · simp only [multiAppend, h, if_false, multiGet, h2]
        exact ih

theorem held_foldl (ns : List Str) (d : List (Str × List (Handler σ γ))) (f : Handler σ γ) (k : Str) :
    held (ns.foldl (fun d n => multiAppend d n f) d) k = held d k ++ List.replicate (ns.count k) f := by
  induction ns generalizing d with
  | nil => simp
  | cons n ns ih =>
    simp only [List.foldl_cons, ih, held_append, List.count_cons, List.append_assoc]
    congr 1
    by_cases h : n = k
    · subst h; simp [List.replicate_succ]
    · simp [h]

theorem registry_held (regs : List (Reg σ γ)) (r : Registry σ γ) :
    (∀ t, held (regs.foldl Registry.add r).nameMatch t = held r.nameMatch t ++ forTag regs t) ∧
    (∀ a, held (regs.foldl Registry.add r).attrMatch a = held r.attrMatch a ++ forAttr regs a) ∧
    (∀ n a, held (regs.foldl Registry.add r).bothMatch (a, n) = held r.bothMatch (a, n) ++ forBoth regs n a) ∧
    (regs.foldl Registry.add r).defaults = r.defaults ++ forAny regs := by
  induction regs generalizing r with
  | nil => simp [forTag, forAttr, forBoth, forAny]
  | cons x regs ih =>
    simp only [List.foldl_cons]
    obtain ⟨i1, i2, i3, i4⟩ := ih (r.add x)
    cases x with
    | name n f =>
      refine ⟨fun t => ?_, fun a => ?_, fun n a => ?_, ?_⟩
      · rw [i1, Registry.add]; simp [held_append, forTag]
      · rw [i2, Registry.add]; simp [forAttr]
      · rw [i3, Registry.add]; simp [forBoth]
      · rw [i4, Registry.add]; simp [forAny]
    | names ns f =>
      refine ⟨fun t => ?_, fun a => ?_, fun n a => ?_, ?_⟩
      · rw [i1, Registry.add]; simp [held_foldl, forTag]
      · rw [i2, Registry.add]; simp [forAttr]
      · rw [i3, Registry.add]; simp [forBoth]
      · rw [i4, Registry.add]; simp [forAny]
    | attr b f =>
      refine ⟨fun t => ?_, fun a => ?_, fun n a => ?_, ?_⟩
      · rw [i1, Registry.add]; simp [forTag]
      · rw [i2, Registry.add]; simp [held_append, forAttr]
      · rw [i3, Registry.add]; simp [forBoth]
      · rw [i4, Registry.add]; simp [forAny]
    | both m b f =>
      refine ⟨fun t => ?_, fun a => ?_, fun n a => ?_, ?_⟩
      · rw [i1, Registry.add]; simp [forTag]
      · rw [i2, Registry.add]; simp [forAttr]
      · rw [i3, Registry.add]; simp [held_append, forBoth, and_comm]
      · rw [i4, Registry.add]; simp [forAny]
    | dflt f =>
      refine ⟨fun t => ?_, fun a => ?_, fun n a => ?_, ?_⟩
      · rw [i1, Registry.add]; simp [forTag]
      · rw [i2, Registry.add]; simp [forAttr]
      · rw [i3, Registry.add]; simp [forBoth]
      · rw [i4, Registry.add]; simp [forAny]

theorem fallback_append (e : Event) (l l' : List (Handler σ γ)) (s : σ) :
    fallbackCall e (l ++ l') s =
      match fallbackCall e l s with
      | .error x => .error x
      | .ok (s1, v) => if v.isEmpty then fallbackCall e l' s1 else .ok (s1, v) := by
  induction l generalizing s with
  | nil => simp [fallbackCall]
  | cons f l ih =>
    simp only [List.cons_append, fallbackCall]
    cases hf : f s e with
    | error x => rfl
    | ok p =>
      obtain ⟨s1, v⟩ := p
      simp only
      cases v with
      | nil => simp only [List.isEmpty_nil, if_true]; exact ih s1
      | cons a v => simp

theorem attrLoop_eq {κ : Type} [DecidableEq κ] (e : Event) (d : List (κ × List (Handler σ γ))) (key : Str → κ)
    (l : List Str) (s : σ) :
    attrLoop e d key l s = fallbackCall e (l.flatMap (fun a => held d (key a))) s := by
  induction l generalizing s with
  | nil => simp [attrLoop, fallbackCall]
  | cons a l ih =>
    simp only [attrLoop, List.flatMap_cons, fallback_append]
    unfold held
    cases h : multiGet d (key a) with
    | none => simp [fallbackCall, ih, held]
    | some fs =>
      simp only [Option.getD_some, ih]
      rfl

theorem asked_iff (e : Event) (l : List (Handler σ γ)) (s : σ) (r : Except PyErr (σ × List γ)) :
    Asked e l s r ↔ fallbackCall e l s = r := by
  constructor
  · intro h
    induction h with
    | none s => rfl
    | raised h => simp [fallbackCall, h]
    | gave h => simp [fallbackCall, h]
    | passed h _ ih => simp [fallbackCall, h, ih]
  · intro h
    induction l generalizing s with
    | nil => rw [← h]; exact .none s
    | cons f l ih =>
      simp only [fallbackCall] at h
      cases hf : f s e with
      | error x => rw [hf] at h; simp only at h; rw [← h]; exact .raised hf
      | ok p =>
        obtain ⟨s1, v⟩ := p
        rw [hf] at h
        cases v with
        | nil => simp at h; exact .passed hf (ih s1 h)
        | cons c cs => simp at h; rw [← h]; exact .gave hf

theorem commands_eq (regs : List (Reg σ γ)) (e : Event) (s : σ) :
    (Registry.ofRegs regs).commands e s =
      fallbackCall e ((e.attrib.map Prod.fst).flatMap (fun a => forBoth regs a e.tag) ++ forTag regs e.tag ++
        (e.attrib.map Prod.fst).flatMap (fun a => forAttr regs a) ++ forAny regs) s := by
  obtain ⟨i1, i2, i3, i4⟩ := registry_held regs {}
  have hn : ∀ s, (Registry.ofRegs regs).nameCall e s = fallbackCall e (forTag regs e.tag) s := by
    intro s
    have := i1 e.tag
    unfold held at this
    unfold Registry.nameCall Registry.ofRegs
    cases hl : multiGet (List.foldl Registry.add {} regs).nameMatch e.tag with
    | none => rw [hl] at this; simp [multiGet] at this; rw [this]; rfl
    | some fs => rw [hl] at this; simp [multiGet] at this; rw [← this]
  have hb : (e.attrib.map Prod.fst).flatMap (fun a => held (Registry.ofRegs regs).bothMatch (e.tag, a)) =
      (e.attrib.map Prod.fst).flatMap (fun a => forBoth regs a e.tag) := by
    congr 1; funext a
    have := i3 a e.tag
    simpa [held, multiGet, Registry.ofRegs] using this
  have ha : (e.attrib.map Prod.fst).flatMap (fun a => held (Registry.ofRegs regs).attrMatch a) =
      (e.attrib.map Prod.fst).flatMap (fun a => forAttr regs a) := by
    congr 1; funext a
    have := i2 a
    simpa [held, multiGet, Registry.ofRegs] using this
  have hd : (Registry.ofRegs regs).defaults = forAny regs := by simpa [Registry.ofRegs] using i4
  unfold Registry.commands Registry.translate
  simp only [attrLoop_eq, hb, ha, hd, fallback_append, bind, Except.bind]
  cases h1 : fallbackCall e ((e.attrib.map Prod.fst).flatMap (fun a => forBoth regs a e.tag)) s with
  | error x => rfl
  | ok p =>
    obtain ⟨s1, v1⟩ := p
    cases v1 with
    | cons c cs => rfl
    | nil =>
      simp only [List.isEmpty_nil, Bool.not_true, Bool.false_eq_true, if_false, if_true]
      rw [hn]
      cases h2 : fallbackCall e (forTag regs e.tag) s1 with
      | error x => rfl
      | ok p =>
        obtain ⟨s2, v2⟩ := p
        cases v2 with
        | cons c cs => rfl
        | nil =>
          simp only [List.isEmpty_nil, Bool.not_true, Bool.false_eq_true, if_false, if_true]
          cases h3 : fallbackCall e ((e.attrib.map Prod.fst).flatMap (fun a => forAttr regs a)) s2 with
          | error x => rfl
          | ok p =>
            obtain ⟨s3, v3⟩ := p
            cases v3 <;> rfl

end Verif.Proofs
