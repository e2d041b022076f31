import Verif.Spec.Translate
import Verif.Proofs.Executor
import Verif.Proofs.Record
import Verif.Proofs.StateFold

namespace Verif.Proofs
open Verif.Py Verif.Model Verif.Spec

/-! ### Values under a key -/

/-- the updates of one key, one after the other -/
def applyAll (v : Val) : List Cmd → Except PyErr Val
  | [] => .ok v
  | c :: cs => do applyAll (← newValue c v) cs

theorem get_iset (s : IState) (k k' : Sub × View) (v : Val) :
    (s.set k v).get k' = if k' = k then v else s.get k' := by
  unfold IState.get IState.set
  rw [lookup_putKey]
  by_cases h : k' = k <;> simp [h]

theorem about_cons (k : Sub × View) (c : Cmd) (cs : List Cmd) :
    about k (c :: cs) = if keyOf c = k then c :: about k cs else about k cs := by
  unfold about
  by_cases h : keyOf c = k <;> simp [h]

theorem about_append (k : Sub × View) (a b : List Cmd) : about k (a ++ b) = about k a ++ about k b := by
  simp [about]

theorem postprocess_get {ts : Option Int} {s s' : IState} {cs out : List Cmd}
    (h : postprocess ts s cs = .ok (s', out)) (k : Sub × View) :
    applyAll (s.get k) (about k cs) = .ok (s'.get k) := by
  induction cs generalizing s out with
  | nil => simp only [postprocess, Except.ok.injEq, Prod.mk.injEq] at h; rw [h.1]; rfl
  | cons c cs ih =>
    simp only [postprocess, bind_ok, pure_ok] at h
    obtain ⟨⟨v, s1⟩, h1, ⟨s2, l⟩, h2, h3⟩ := h
    simp only [Prod.mk.injEq] at h3
    obtain ⟨rfl, rfl⟩ := h3
    simp only [interpret, bind_ok, pure_ok, Prod.mk.injEq] at h1
    obtain ⟨v', h4, rfl, rfl⟩ := h1
    have := ih h2
    rw [get_iset] at this
    rw [about_cons]
    by_cases hk : keyOf c = k
    · have hk' : k = (c.sub, c.prop) := hk.symm
      rw [if_pos hk] 
      rw [if_pos hk'] at this
      rw [← hk'] at h4
      simp only [applyAll, h4]
      exact this
    · have hk' : ¬ k = (c.sub, c.prop) := fun x => hk x.symm
      rw [if_neg hk]
      rw [if_neg hk'] at this
      exact this

/-- the commands handed out are the generated ones with states and timestamp filled in -/
theorem postprocess_out {ts : Option Int} {s s' : IState} {cs out : List Cmd}
    (h : postprocess ts s cs = .ok (s', out)) :
    out.map (fun c => { c with state := .none, timestamp := none }) =
      cs.map (fun c => { c with state := .none, timestamp := none }) ∧ ∀ c ∈ out, c.timestamp = ts := by
  induction cs generalizing s out with
  | nil =>
    simp only [postprocess, Except.ok.injEq, Prod.mk.injEq] at h
    rw [← h.2]; simp
  | cons c cs ih =>
    simp only [postprocess, bind_ok, pure_ok] at h
    obtain ⟨⟨v, s1⟩, h1, ⟨s2, l⟩, h2, h3⟩ := h
    simp only [Prod.mk.injEq] at h3
    obtain ⟨rfl, rfl⟩ := h3
    obtain ⟨i1, i2⟩ := ih h2
    refine ⟨by simp [i1], ?_⟩
    intro d hd
    rcases List.mem_cons.1 hd with rfl | hd
    · rfl
    · exact i2 d hd

/-- the last command about a key carries the value the key has afterwards -/
theorem postprocess_last {ts : Option Int} {s s' : IState} {cs out : List Cmd}
    (h : postprocess ts s cs = .ok (s', out)) (k : Sub × View) :
    (about k out = [] ∧ s'.get k = s.get k) ∨ ∃ a c, about k out = a ++ [c] ∧ c.state = s'.get k := by
  induction cs generalizing s out with
  | nil =>
    simp only [postprocess, Except.ok.injEq, Prod.mk.injEq] at h
    rw [← h.2, h.1]; exact .inl ⟨rfl, rfl⟩
  | cons c cs ih =>
    simp only [postprocess, bind_ok, pure_ok] at h
    obtain ⟨⟨v, s1⟩, h1, ⟨s2, l⟩, h2, h3⟩ := h
    simp only [Prod.mk.injEq] at h3
    obtain ⟨rfl, rfl⟩ := h3
    simp only [interpret, bind_ok, pure_ok, Prod.mk.injEq] at h1
    obtain ⟨v', h4, rfl, rfl⟩ := h1
    have e : keyOf { c with state := v', timestamp := ts } = keyOf c := rfl
    rw [about_cons, e]
    rcases ih h2 with ⟨i1, i2⟩ | ⟨a, d, i1, i2⟩
    · rw [i1, i2, get_iset]
      by_cases hk : keyOf c = k
      · have hk' : k = (c.sub, c.prop) := hk.symm
        rw [if_pos hk, if_pos hk']
        exact .inr ⟨[], _, rfl, rfl⟩
      · have hk' : ¬ k = (c.sub, c.prop) := fun x => hk x.symm
        rw [if_neg hk, if_neg hk']
        exact .inl ⟨rfl, rfl⟩
    · rw [i1]
      right
      by_cases hk : keyOf c = k
      · rw [if_pos hk]; exact ⟨_ :: a, d, rfl, i2⟩
      · rw [if_neg hk]; exact ⟨a, d, rfl, i2⟩

/-! ### One event -/

theorem call_inv {strict : Bool} {ctx ctx' : Ctx} {t : TEvent} {out : List Cmd}
    (h : callTranslator strict ctx t = .ok (ctx', out)) :
    ∃ ctx1 l, generate ctx t.ev = .ok (ctx1, l) ∧ postprocess (some t.timestamp) ctx1.vals l = .ok (ctx'.vals, out) ∧
      ctx'.right = ctx1.right ∧ ctx'.indexer = ctx1.indexer := by
  simp only [callTranslator, bind_ok] at h
  obtain ⟨⟨ctx1, l⟩, h1, h2⟩ := h
  refine ⟨ctx1, l, h1, ?_⟩
  by_cases hl : l = []
  · subst hl
    simp only [ne_eq, not_true_eq_false, if_false] at h2
    cases strict
    · simp only [Bool.false_eq_true, if_false, pure_ok, Prod.mk.injEq] at h2
      obtain ⟨rfl, rfl⟩ := h2
      exact ⟨rfl, rfl, rfl⟩
    · simp at h2
  · simp only [ne_eq, hl, not_false_eq_true, if_true, bind_ok, pure_ok] at h2
    obtain ⟨⟨s, o⟩, h3, h4⟩ := h2
    simp only [Prod.mk.injEq] at h4
    obtain ⟨rfl, rfl⟩ := h4
    exact ⟨h3, rfl, rfl⟩

theorem call_get {strict : Bool} {ctx ctx' ctx1 : Ctx} {t : TEvent} {out l : List Cmd}
    (h : callTranslator strict ctx t = .ok (ctx', out)) (hg : generate ctx t.ev = .ok (ctx1, l)) (k : Sub × View) :
    applyAll (ctx1.vals.get k) (about k l) = .ok (ctx'.vals.get k) := by
  obtain ⟨c, l', h1, h2, _⟩ := call_inv h
  rw [hg] at h1
  cases h1
  exact postprocess_get h2 k

theorem translateAll_append {strict : Bool} {ctx ctx' : Ctx} {a b : List TEvent} {out : List Cmd} :
    translateAll strict ctx (a ++ b) = .ok (ctx', out) ↔
      ∃ ctx1 o1 o2, translateAll strict ctx a = .ok (ctx1, o1) ∧ translateAll strict ctx1 b = .ok (ctx', o2) ∧
        out = o1 ++ o2 := by
  induction a generalizing ctx out with
  | nil => 
    simp only [List.nil_append, translateAll, Except.ok.injEq, Prod.mk.injEq]
    constructor
    · intro h; exact ⟨ctx, [], out, ⟨rfl, rfl⟩, h, rfl⟩
    · rintro ⟨c, o1, o2, ⟨rfl, rfl⟩, h, rfl⟩; simpa using h
  | cons t a ih =>
    simp only [List.cons_append, translateAll, bind_ok, pure_ok, Prod.exists, Prod.mk.injEq]
    constructor
    · rintro ⟨c1, l1, h1, c2, l2, h2, rfl, rfl⟩
      obtain ⟨c3, o1, o2, h3, h4, rfl⟩ := ih.1 h2
      exact ⟨c3, l1 ++ o1, o2, ⟨c1, l1, h1, c3, o1, h3, rfl, rfl⟩, h4, by simp⟩
    · rintro ⟨c3, o1, o2, ⟨c1, l1, h1, c4, l2, h2, rfl, rfl⟩, h4, rfl⟩
      exact ⟨c1, l1, h1, ctx', l2 ++ o2, ih.2 ⟨_, _, _, h2, h4, rfl⟩, rfl, by simp⟩

/-! ### Tile names -/

theorem name_table : ∀ n : Fin 136, (tileFromTenhou (n.val : Int)).map Tile.str = .ok (tileName n.val) := by
  decide +kernel

theorem name_tile {t : Int} (h : IsTile t) : (tileFromTenhou t).map Tile.str = .ok (tileName t) := by
  obtain ⟨h0, h1⟩ := h
  have := name_table ⟨t.toNat, by omega⟩
  simp only [Int.toNat_of_nonneg h0] at this
  exact this

theorem tileNames_eq {l : List Int} (h : ∀ t ∈ l, IsTile t) : tileNames l = .ok (l.map tileName) :=
  mapM_ok _ _ _ (fun t ht => name_tile (h t ht))

/-! ### Keys of commands -/

theorem pv_table : ∀ a ∈ propertyNames .player, ∀ b ∈ propertyNames .player,
    Verif.Model.view .player a = Verif.Model.view .player b → a = b := by decide +kernel

theorem pv_iff {a b : String} (ha : a ∈ propertyNames .player) (hb : b ∈ propertyNames .player) :
    (Verif.Model.view .player a = Verif.Model.view .player b) = (a = b) := by
  apply propext
  exact ⟨pv_table a ha b hb, fun h => by rw [h]⟩

theorem keyOf_pcmd (ev : EventType) (q : Int) (a : String) (u : Update) (v : Val) :
    keyOf (pcmd ev q a u v) = (.num q, Verif.Model.view .player a) := rfl
theorem keyOf_gcmd (ev : EventType) (a : String) (u : Update) (v : Val) :
    keyOf (gcmd ev a u v) = (Sub.all, Verif.Model.view .game a) := rfl
theorem keyOf_rcmd (ev : EventType) (a : String) (u : Update) (v : Val) :
    keyOf (rcmd ev a u v) = (Sub.all, Verif.Model.view .record a) := rfl

theorem pkey_iff {a b : String} (ha : a ∈ propertyNames .player) (hb : b ∈ propertyNames .player) (q : Int) (p : Nat) :
    ((Sub.num q, Verif.Model.view .player a) = ofPlayer p b) = (q = p ∧ a = b) := by
  unfold ofPlayer
  rw [Prod.mk.injEq, pv_iff ha hb, Sub.num.injEq]

theorem gkey_ne (v : View) (p : Nat) (b : String) : ((Sub.all, v) = ofPlayer p b) = False := by
  unfold ofPlayer Sub.all
  simp

theorem about_none {k : Sub × View} {l : List Cmd} (h : ∀ c ∈ l, c.prop ≠ k.2) : about k l = [] := by
  unfold about
  rw [List.filter_eq_nil_iff]
  intro c hc
  have := h c hc
  simp only [decide_eq_true_eq]
  intro e
  exact this (by rw [← e]; rfl)

end Verif.Proofs
