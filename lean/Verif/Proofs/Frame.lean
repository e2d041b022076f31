import Verif.Proofs.Fine

/-! The tables of a record. -/
namespace Verif.Proofs
open Verif.Py Verif.Model Verif.Spec

theorem carried_at {cs : List Cmd} {s' : IState} (h : Carried [] cs s') {k : Nat} {c : Cmd} (hc : cs[k]? = some c) :
    Fine c ∧ ∃ s0 s, interpretAll [] (cs.take k) = .ok s0 ∧ interpret s0 c = .ok (c.state, s) ∧ Sound s0 ∧
      interpretAll [] (cs.take (k + 1)) = .ok s ∧ s.lookup (c.sub, c.prop) = some c.state ∧ ValOk c.state := by
  obtain ⟨s0, a, b, d⟩ := carried_take sound_nil h k
  obtain ⟨hl, rfl⟩ := List.getElem?_eq_some_iff.1 hc
  rw [List.drop_eq_getElem_cons hl] at d
  obtain ⟨hf, s1, hi, _⟩ := d
  obtain ⟨_, hv, hlk⟩ := interpret_sound b hf hi
  refine ⟨hf, s0, s1, a, hi, b, ?_, hlk, hv⟩
  rw [List.take_succ_eq_append_getElem hl, interpretAll_append, a]
  show interpretAll s0 [cs[k]] = _
  rw [interpretAll, hi]
  rfl

/-- a command with its values as a text column brings them back -/
theorem carried_record (sh : Val → Str) {cs : List Cmd} {s' : IState} (h : Carried [] cs s') {c : Cmd} (hm : c ∈ cs) :
    ∃ r, c.toRecord sh = .ok r ∧
      (c.prop ≠ view .player "extra_level" → Cmd.fromRecord r = .ok c) ∧
      (c.prop = view .player "extra_level" →
        Cmd.fromRecord r = .ok { c with value := .str (pyStrVal sh c.value), state := .str (pyStrVal sh c.state) }) := by
  obtain ⟨k, hk⟩ := List.getElem?_of_mem hm
  obtain ⟨hf, s0, s, _, hi, _, _, _, hst⟩ := carried_at h hk
  obtain ⟨hv, sc, n, kd, htab, hp, hsh, hsub⟩ := hf
  have hkd : HasKind c.prop kd := ⟨sc, n, htab, hp⟩
  obtain ⟨nm, hn, hb⟩ := name_kind ⟨kd, hkd⟩
  have hs : SubOk c.sub := by
    rcases hsub with ⟨_, p, e⟩ | ⟨_, e⟩
    · rw [e]; trivial
    · rw [e]
      rintro ⟨_, hd⟩
      have := hd 'a' (by decide)
      revert this
      decide
  refine ⟨_, toRecord_eq sh c hkd nm hn, ?_, ?_⟩
  · intro hne
    rw [fromRecord_eq sh c hkd nm hb hv hst hs]
    have hval : c.state = c.value ∨ kd ≠ .text := by
      by_cases ht : kd = .text
      · left
        have hu := (hsh.1 ht).1
        rw [interpret] at hi
        simp only [bind_ok, pure_ok, Prod.mk.injEq] at hi
        obtain ⟨x, hx, rfl, _⟩ := hi
        rcases hu with hu | hu <;> · rw [newValue, hu] at hx; injection hx with hx; exact hx.symm
      · exact .inr ht
    by_cases ht : kd = .text
    · have hn' : n ≠ "extra_level" := by
        intro e
        apply hne
        have := rate_only _ htab e
        simp only at this
        rw [hp, e, this]
      obtain ⟨t, htx⟩ := (hsh.1 ht).2 hn'
      have hstate : c.state = .str t := by rcases hval with h | h; exact h.trans htx; exact absurd ht h
      have e1 : readBack sh kd c.value = c.value := by rw [htx]; simp [readBack, ht, pyStrVal]
      have e2 : readBack sh kd c.state = c.state := by rw [hstate]; simp [readBack, ht, pyStrVal]
      rw [e1, e2]
    · have e1 : readBack sh kd c.value = c.value := by simp [readBack, ht]
      have e2 : readBack sh kd c.state = c.state := by simp [readBack, ht]
      rw [e1, e2]
  · intro he
    have ht : kd = .text := kind_unique hkd ⟨.player, "extra_level", by decide +kernel, he⟩
    rw [fromRecord_eq sh c hkd nm hb hv hst hs]
    simp [readBack, ht]

theorem mapM_get {α β : Type} {f : α → Except PyErr β} {l : List α} {r : List β} (h : l.mapM f = .ok r) :
    r.length = l.length ∧ ∀ (k : Nat) a, l[k]? = some a → ∃ b, r[k]? = some b ∧ f a = .ok b := by
  induction l generalizing r with
  | nil => simp only [List.mapM_nil, pure_ok] at h; subst h; simp
  | cons x l ih =>
    simp only [List.mapM_cons, bind_ok, pure_ok] at h
    obtain ⟨y, h1, ys, h2, rfl⟩ := h
    obtain ⟨i1, i2⟩ := ih h2
    refine ⟨by simp [i1], ?_⟩
    intro k a ha
    cases k with
    | zero => simp at ha; subst ha; exact ⟨y, by simp, h1⟩
    | succ k => simpa using i2 k a (by simpa using ha)

theorem mapM_total {α β : Type} {f : α → Except PyErr β} {l : List α} (h : ∀ a ∈ l, ∃ b, f a = .ok b) : ∃ r, l.mapM f = .ok r := by
  induction l with
  | nil => exact ⟨[], rfl⟩
  | cons a l ih =>
    obtain ⟨b, hb⟩ := h a (by simp)
    obtain ⟨r, hr⟩ := ih (fun x hx => h x (by simp [hx]))
    exact ⟨b :: r, by rw [List.mapM_cons, hb, hr]; rfl⟩

/-- `Seated`, computed -/
def seatedB (e : Event) : Bool :=
  match e.attrib.lookup "who".toList with
  | none => true
  | some w => match pyInt w with
    | .ok n => decide (0 ≤ n ∧ n < 4)
    | .error _ => true

theorem seated_of_B {e : Event} (h : seatedB e = true) : Seated e := by
  intro w n h1 h2
  rw [seatedB, h1] at h
  simp only [h2] at h
  simpa using h

end Verif.Proofs
