import Verif.Spec.DictStore
import Verif.Proofs.Executor

/-! `TransferDict` with objects. -/
namespace Verif.Proofs
open Verif.Py Verif.Model Verif.Spec

/-- every object after `n` of the first is there in the second -/
def KeptAfter (n : Nat) (h h' : DStore) : Prop := ∀ i o, n < i → h[i]? = some o → h'[i]? = some o

mutual
theorem SlotIs.mono {h h' : DStore} {n self : Nat} {k : Key} {s : Slot} (hk : KeptAfter n h h') (hn : n ≤ self) :
    ∀ t : Tree, SlotIs h self k s t → SlotIs h' self k s t
  | .leaf v => fun hs => by rw [SlotIs] at hs ⊢; exact hs
  | .node kids => fun hs => by
    rw [SlotIs] at hs ⊢
    obtain ⟨r, o, h1, h2, h3, h4, h5⟩ := hs
    exact ⟨r, o, h1, h2, hk r o (by omega) h3, h4, KidsAre.mono hk (by omega) kids h5⟩
theorem KidsAre.mono {h h' : DStore} {n self : Nat} {es : List (Key × Slot)} (hk : KeptAfter n h h') (hn : n ≤ self) :
    ∀ kids : List (Key × Tree), KidsAre h self es kids → KidsAre h' self es kids
  | [] => fun hs => by rw [KidsAre] at hs ⊢; exact hs
  | (k, t) :: kids => fun hs => by
    rw [KidsAre] at hs ⊢
    obtain ⟨s, es', h1, h2, h3⟩ := hs
    exact ⟨s, es', h1, SlotIs.mono hk hn t h2, KidsAre.mono hk hn kids h3⟩
end

theorem keptAfter_prefix {h h' : DStore} (hp : h <+: h') (n : Nat) : KeptAfter n h h' := by
  obtain ⟨l, rfl⟩ := hp
  intro i o _ hi
  rw [List.getElem?_append_left, hi]
  by_contra hn
  rw [List.getElem?_eq_none (by omega)] at hi
  cases hi

theorem keptAfter_set (h : DStore) (n : Nat) (o : DObj) : KeptAfter n h (h.set n o) := by
  intro i o' hi ho
  rw [List.getElem?_set_ne (by omega)]
  exact ho

theorem getElem_prefix {h h' : DStore} (hp : h <+: h') {i : Nat} {o : DObj} (hi : h[i]? = some o) : h'[i]? = some o := by
  obtain ⟨l, rfl⟩ := hp
  rw [List.getElem?_append_left, hi]
  by_contra hn
  rw [List.getElem?_eq_none (by omega)] at hi
  cases hi

theorem ObjIs.mono {h h' : DStore} (hp : h <+: h') {r : Nat} {parent : Option (Nat × Key)} {kids : List (Key × Tree)} (ho : ObjIs h r parent kids) :
    ObjIs h' r parent kids := by
  obtain ⟨o, h1, h2, h3⟩ := ho
  exact ⟨o, getElem_prefix hp h1, h2, KidsAre.mono (keptAfter_prefix hp 0) (Nat.zero_le _) _ h3⟩

theorem DictIs.mono {h h' : DStore} (hp : h <+: h') : ∀ {r : Nat} {kids : List (Key × Tree)} (ps : List (List (Key × Tree) × Key)),
    DictIs h r kids ps → DictIs h' r kids ps
  | _, _, [], hd => ObjIs.mono hp hd
  | _, _, (_, _) :: ps, ⟨p, h1, h2⟩ => ⟨p, ObjIs.mono hp h1, DictIs.mono hp ps h2⟩

theorem ArgIs.mono {h h' : DStore} (hp : h <+: h') {a : DArg} {t : Tree} (ha : ArgIs h a t) : ArgIs h' a t := by
  cases a with
  | plain t' => exact ha
  | ref r =>
    obtain ⟨parent, kids, h1, h2⟩ := ha
    exact ⟨parent, kids, h1, ObjIs.mono hp h2⟩

/-- the arguments stand for these entries -/
def ArgsAre (h : DStore) : List (Key × DArg) → List (Key × Tree) → Prop
  | as, [] => as = []
  | as, (k, t) :: kids => ∃ a as', as = (k, a) :: as' ∧ ArgIs h a t ∧ ArgsAre h as' kids

theorem ArgsAre.mono {h h' : DStore} (hp : h <+: h') : ∀ {as : List (Key × DArg)} (kids : List (Key × Tree)), ArgsAre h as kids → ArgsAre h' as kids
  | _, [], ha => ha
  | _, (_, _) :: kids, ⟨a, as', h1, h2, h3⟩ => ⟨a, as', h1, ArgIs.mono hp h2, ArgsAre.mono hp kids h3⟩

theorem argsAre_plain (h : DStore) (kids : List (Key × Tree)) : ArgsAre h (kids.map (fun e => (e.1, DArg.plain e.2))) kids := by
  induction kids with
  | nil => rfl
  | cons e kids ih => exact ⟨_, _, rfl, rfl, ih⟩

theorem argIs_slot {h : DStore} {self : Nat} {k : Key} {s : Slot} : ∀ {t : Tree}, SlotIs h self k s t → ArgIs h s.arg t
  | .leaf v, hs => by rw [SlotIs] at hs; subst hs; rfl
  | .node kids, hs => by
    rw [SlotIs] at hs
    obtain ⟨r, o, h1, _, h3, h4, h5⟩ := hs
    subst h1
    exact ⟨_, kids, rfl, o, h3, h4, h5⟩

theorem argsAre_entries {h : DStore} {self : Nat} : ∀ {es : List (Key × Slot)} (kids : List (Key × Tree)), KidsAre h self es kids →
    ArgsAre h (es.map (fun e => (e.1, e.2.arg))) kids
  | es, [], hk => by rw [KidsAre] at hk; subst hk; rfl
  | es, (k, t) :: kids, hk => by
    rw [KidsAre] at hk
    obtain ⟨s, es', rfl, h2, h3⟩ := hk
    exact ⟨s.arg, _, rfl, argIs_slot h2, argsAre_entries kids h3⟩

theorem argsAre_put {h : DStore} {a : DArg} {t : Tree} (ha : ArgIs h a t) (k : Key) : ∀ {as : List (Key × DArg)} (kids : List (Key × Tree)),
    ArgsAre h as kids → ArgsAre h (putKey as k a) (putKey kids k t)
  | as, [], hk => by
    have : as = [] := hk
    subst this
    exact ⟨a, [], rfl, ha, rfl⟩
  | as, (k', t') :: kids, hk => by
    obtain ⟨a', as', rfl, h2, h3⟩ := hk
    simp only [putKey]
    by_cases hkk : k' = k
    · rw [if_pos hkk, if_pos hkk]
      exact ⟨a, as', rfl, ha, h3⟩
    · rw [if_neg hkk, if_neg hkk]
      exact ⟨a', _, rfl, h2, argsAre_put ha k kids h3⟩

theorem kidsAre_filter {h : DStore} {self : Nat} (q : Key → Bool) : ∀ {es : List (Key × Slot)} (kids : List (Key × Tree)), KidsAre h self es kids →
    KidsAre h self (es.filter (fun e => q e.1)) (kids.filter (fun e => q e.1))
  | es, [], hk => by rw [KidsAre] at hk; subst hk; rw [List.filter_nil, List.filter_nil, KidsAre]
  | es, (k, t) :: kids, hk => by
    rw [KidsAre] at hk
    obtain ⟨s, es', rfl, h2, h3⟩ := hk
    simp only [List.filter_cons]
    have := kidsAre_filter q kids h3
    by_cases hq : q k = true
    · rw [if_pos hq, if_pos hq, KidsAre]
      exact ⟨s, _, rfl, h2, this⟩
    · rw [if_neg hq, if_neg hq]
      exact this

theorem kidsAre_lookup {h : DStore} {self : Nat} (k : Key) : ∀ {es : List (Key × Slot)} (kids : List (Key × Tree)), KidsAre h self es kids →
    (kids.lookup k = none ∧ es.lookup k = none) ∨ ∃ t s, kids.lookup k = some t ∧ es.lookup k = some s ∧ SlotIs h self k s t
  | es, [], hk => by rw [KidsAre] at hk; subst hk; exact .inl ⟨rfl, rfl⟩
  | es, (k', t) :: kids, hk => by
    rw [KidsAre] at hk
    obtain ⟨s, es', rfl, h2, h3⟩ := hk
    rw [lookup_cons_if, lookup_cons_if]
    by_cases hkk : k = k'
    · subst hkk
      rw [if_pos rfl, if_pos rfl]
      exact .inr ⟨t, s, rfl, rfl, h2⟩
    · rw [if_neg hkk, if_neg hkk]
      exact kidsAre_lookup k kids h3

mutual
/-- how deep dictionaries are nested in a tree -/
def treeDepth : Tree → Nat
  | .leaf _ => 0
  | .node kids => kidsDepth kids + 1
/-- how deep dictionaries are nested in entries -/
def kidsDepth : List (Key × Tree) → Nat
  | [] => 0
  | (_, t) :: kids => max (treeDepth t) (kidsDepth kids)
end

/-- what the constructor is expected to do -/
def MakeOK (d : Nat) (make : List (Key × DArg) → Option (Nat × Key) → DStore → Option (Nat × DStore)) : Prop :=
  ∀ as parent (h : DStore) kids, kidsDepth kids < d → ArgsAre h as kids →
    ∃ h', make as parent h = some (h.length, h') ∧ h <+: h' ∧ ObjIs h' h.length parent kids

theorem transferAll_ok {d : Nat} {make : List (Key × DArg) → Option (Nat × Key) → DStore → Option (Nat × DStore)} (hm : MakeOK d make) {self : Nat} :
    ∀ (kids : List (Key × Tree)) {as : List (Key × DArg)} {h : DStore}, self < h.length → kidsDepth kids ≤ d → ArgsAre h as kids →
      ∃ es h', transferAll make self as h = some (es, h') ∧ h <+: h' ∧ KidsAre h' self es kids
  | [], as, h, _, _, ha => by
    have : as = [] := ha
    subst this
    exact ⟨[], h, rfl, List.prefix_refl _, by rw [KidsAre]⟩
  | (k, t) :: kids, as, h, hs, hd, ha => by
    obtain ⟨a, as', rfl, h2, h3⟩ := ha
    rw [kidsDepth] at hd
    have step : ∀ (kids' : List (Key × Tree)) (as2 : List (Key × DArg)), t = .node kids' → ArgsAre h as2 kids' →
        ∃ r h1 es h', make as2 (some (self, k)) h = some (r, h1) ∧ transferAll make self as' h1 = some (es, h') ∧ h <+: h' ∧
          KidsAre h' self ((k, .ref r) :: es) ((k, t) :: kids) := by
      intro kids' as2 ht ha2
      subst ht
      rw [treeDepth] at hd
      obtain ⟨h1, m1, m2, m3⟩ := hm as2 (some (self, k)) h kids' (by omega) ha2
      obtain ⟨es, h', t1, t2, t3⟩ := transferAll_ok hm kids (h := h1) (Nat.lt_of_lt_of_le hs m2.length_le) (by omega) (ArgsAre.mono m2 kids h3)
      refine ⟨h.length, h1, es, h', m1, t1, m2.trans t2, ?_⟩
      rw [KidsAre]
      refine ⟨_, _, rfl, ?_, t3⟩
      rw [SlotIs]
      obtain ⟨o, o1, o2, o3⟩ := ObjIs.mono t2 m3
      exact ⟨_, o, rfl, hs, o1, o2, o3⟩
    cases a with
    | plain t' =>
      have : t' = t := h2
      subst this
      cases t' with
      | leaf v =>
        obtain ⟨es, h', t1, t2, t3⟩ := transferAll_ok hm kids (as := as') (h := h) hs (by omega) h3
        refine ⟨(k, .val v) :: es, h', by simp only [transferAll, t1], t2, ?_⟩
        rw [KidsAre]
        exact ⟨_, _, rfl, by rw [SlotIs], t3⟩
      | node kids' =>
        obtain ⟨r, h1, es, h', m1, t1, p, k3⟩ := step kids' _ rfl (argsAre_plain h kids')
        exact ⟨_, h', by simp only [transferAll, m1, t1], p, k3⟩
    | ref r0 =>
      obtain ⟨parent, kids', ht, o, o1, o2, o3⟩ := h2
      obtain ⟨r, h1, es, h', m1, t1, p, k3⟩ := step kids' _ ht (argsAre_entries kids' o3)
      exact ⟨_, h', by simp only [transferAll, o1, m1, t1], p, k3⟩

theorem newDict_ok (fuel : Nat) : MakeOK fuel (newDict fuel) := by
  induction fuel with
  | zero => intro as parent h kids hd; omega
  | succ fuel ih =>
    intro as parent h kids hd ha
    have p0 : h <+: h ++ [(⟨parent, []⟩ : DObj)] := List.prefix_append _ _
    obtain ⟨es, h1, t1, t2, t3⟩ := transferAll_ok ih (self := h.length) kids (h := h ++ [⟨parent, []⟩]) (by simp) (by omega) (ArgsAre.mono p0 kids ha)
    have hl : h.length < h1.length := Nat.lt_of_lt_of_le (by simp) t2.length_le
    refine ⟨h1.set h.length ⟨parent, es⟩, by simp only [newDict, t1], ?_, ⟨parent, es⟩, by simp [hl], rfl, ?_⟩
    · obtain ⟨l, rfl⟩ := p0.trans t2
      rw [List.set_append_right _ _ (Nat.le_refl _)]
      exact List.prefix_append _ _
    · exact KidsAre.mono (keptAfter_set _ _ _) (Nat.le_refl _) _ t3

/-- the fuel the upward chain needs -/
def upDepth (kids : List (Key × Tree)) : List (List (Key × Tree) × Key) → Nat
  | [] => kidsDepth kids + 1
  | (up, key) :: ps => max (kidsDepth kids + 1) (upDepth (putKey up key (.node kids)) ps)

/-- the end of `set` and `drop`, once the changed dictionary is there -/
theorem setRun_ok {fuel : Nat} : ∀ (ps : List (List (Key × Tree) × Key)) (n : Nat) {r : Nat} {kids : List (Key × Tree)} {k : Key} {a : DArg} {t : Tree}
    {h : DStore}, DictIs h r kids ps → ArgIs h a t → upDepth (putKey kids k t) ps ≤ fuel → ps.length < n →
    ∃ r' h', setRun fuel n r k a h = some (r', h') ∧ h <+: h' ∧ ObjIs h' r' none (TD.rebuild (putKey kids k t) ps).kids
  | _, 0, _, _, _, _, _, _, _, _, _, hn => by omega
  | [], n + 1, r, kids, k, a, t, h, ⟨o, o1, o2, o3⟩, ha, hf, _ => by
    rw [upDepth] at hf
    obtain ⟨h1, m1, m2, m3⟩ := newDict_ok fuel _ none h _ (by omega) (argsAre_put ha k _ (argsAre_entries kids o3))
    refine ⟨_, h1, by simp only [setRun, o1, o2, m1], m2, m3⟩
  | (up, key) :: ps, n + 1, r, kids, k, a, t, h, ⟨p, ⟨o, o1, o2, o3⟩, hp⟩, ha, hf, hn => by
    rw [upDepth] at hf
    obtain ⟨h1, m1, m2, m3⟩ := newDict_ok fuel _ (some (p, key)) h _ (by omega) (argsAre_put ha k _ (argsAre_entries kids o3))
    obtain ⟨r', h', s1, s2, s3⟩ := setRun_ok (fuel := fuel) ps n (k := key) (a := .ref h.length) (t := .node (putKey kids k t)) (h := h1)
      (DictIs.mono m2 ps hp) ⟨_, _, rfl, m3⟩ (by omega) (by simp at hn; omega)
    exact ⟨r', h', by simp only [setRun, o1, o2, m1]; exact s1, m2.trans s2, s3⟩

theorem transferAll_mono {m1 m2 : List (Key × DArg) → Option (Nat × Key) → DStore → Option (Nat × DStore)}
    (hm : ∀ a p h x, m1 a p h = some x → m2 a p h = some x) (self : Nat) : ∀ (as : List (Key × DArg)) (h : DStore) (x),
    transferAll m1 self as h = some x → transferAll m2 self as h = some x
  | [], _, _, e => e
  | (k, .plain (.leaf v)) :: rest, h, x, e => by
    simp only [transferAll] at e ⊢
    cases e1 : transferAll m1 self rest h with
    | none => rw [e1] at e; cases e
    | some y => rw [e1] at e; rw [transferAll_mono hm self rest h y e1]; exact e
  | (k, .plain (.node kids)) :: rest, h, x, e => by
    simp only [transferAll] at e ⊢
    cases e0 : m1 (kids.map (fun e => (e.1, .plain e.2))) (some (self, k)) h with
    | none => rw [e0] at e; cases e
    | some z =>
      rw [e0] at e
      rw [hm _ _ _ _ e0]
      simp only at e ⊢
      cases e1 : transferAll m1 self rest z.2 with
      | none => rw [e1] at e; cases e
      | some y => rw [e1] at e; rw [transferAll_mono hm self rest z.2 y e1]; exact e
  | (k, .ref r0) :: rest, h, x, e => by
    simp only [transferAll] at e ⊢
    cases eo : h[r0]? with
    | none => rw [eo] at e; cases e
    | some o =>
      rw [eo] at e
      simp only at e ⊢
      cases e0 : m1 (o.entries.map (fun e => (e.1, e.2.arg))) (some (self, k)) h with
      | none => rw [e0] at e; cases e
      | some z =>
        rw [e0] at e
        rw [hm _ _ _ _ e0]
        simp only at e ⊢
        cases e1 : transferAll m1 self rest z.2 with
        | none => rw [e1] at e; cases e
        | some y => rw [e1] at e; rw [transferAll_mono hm self rest z.2 y e1]; exact e

theorem newDict_succ : ∀ (f : Nat) a p h x, newDict f a p h = some x → newDict (f + 1) a p h = some x
  | 0, _, _, _, _, e => by cases e
  | f + 1, a, p, h, x, e => by
    rw [newDict] at e ⊢
    cases e1 : transferAll (newDict f) h.length a (h ++ [⟨p, []⟩]) with
    | none => rw [e1] at e; cases e
    | some y => rw [e1] at e; rw [transferAll_mono (newDict_succ f) h.length a _ y e1]; exact e

theorem newDict_mono {f g : Nat} (hfg : f ≤ g) {a p h x} (e : newDict f a p h = some x) : newDict g a p h = some x := by
  induction hfg with
  | refl => exact e
  | step _ ih => exact newDict_succ _ _ _ _ _ ih

theorem setRun_mono {f g : Nat} (hfg : f ≤ g) : ∀ {n m : Nat}, n ≤ m → ∀ {r k a h x}, setRun f n r k a h = some x → setRun g m r k a h = some x
  | 0, _, _, _, _, _, _, _, e => by cases e
  | n + 1, 0, hnm, _, _, _, _, _, _ => by omega
  | n + 1, m + 1, hnm, r, k, a, h, x, e => by
    rw [setRun] at e ⊢
    cases eo : h[r]? with
    | none => rw [eo] at e; cases e
    | some o =>
      rw [eo] at e
      simp only at e ⊢
      cases e0 : newDict f (putKey (o.entries.map (fun e => (e.1, e.2.arg))) k a) o.parent h with
      | none => rw [e0] at e; cases e
      | some z =>
        rw [e0] at e
        rw [newDict_mono hfg e0]
        simp only at e ⊢
        cases op : o.parent with
        | none => rw [op] at e; exact e
        | some q => rw [op] at e; exact setRun_mono hfg (by omega) e

theorem dictIs_child {h : DStore} {r r' : Nat} {d : TD} (hd : DictIs h r d.kids d.parents) {k : Key} (hi : dictItem r k h = some (.ref r')) :
    ∃ c, d.child k = .ok c ∧ DictIs h r' c.kids c.parents := by
  have ho : ∃ parent, ObjIs h r parent d.kids := by
    cases hp : d.parents with
    | nil => rw [hp] at hd; exact ⟨_, hd⟩
    | cons x ps => rw [hp] at hd; obtain ⟨p, h1, _⟩ := hd; exact ⟨_, h1⟩
  obtain ⟨parent, o, o1, o2, o3⟩ := ho
  rw [dictItem, o1] at hi
  simp only at hi
  rcases kidsAre_lookup k _ o3 with ⟨_, e⟩ | ⟨t, s, e1, e2, e3⟩
  · rw [e] at hi; cases hi
  · have : s = .ref r' := by
      rw [e2] at hi
      exact Option.some.inj hi
    subst this
    cases t with
    | leaf v => rw [SlotIs] at e3; cases e3
    | node kids =>
      rw [SlotIs] at e3
      obtain ⟨r2, o', q1, _, q3, q4, q5⟩ := e3
      cases q1
      refine ⟨⟨kids, (d.kids, k) :: d.parents⟩, by rw [TD.child, e1], r, ⟨o', q3, q4, q5⟩, hd⟩

theorem dictIs_walk {h : DStore} : ∀ (ks : List Key) {r r' : Nat} {d : TD}, DictIs h r d.kids d.parents → dictWalk r ks h = some r' →
    ∃ c, goTo d ks = .ok c ∧ DictIs h r' c.kids c.parents
  | [], r, r', d, hd, hw => by
    cases hw
    exact ⟨d, rfl, hd⟩
  | k :: ks, r, r', d, hd, hw => by
    rw [dictWalk] at hw
    split at hw
    · rename_i r1 e
      obtain ⟨c, c1, c2⟩ := dictIs_child hd e
      obtain ⟨c', g1, g2⟩ := dictIs_walk ks c2 hw
      refine ⟨c', ?_, g2⟩
      rw [goTo, c1]
      exact g1
    · cases hw

theorem rebuild_parents (kids : List (Key × Tree)) (ps : List (List (Key × Tree) × Key)) : (TD.rebuild kids ps).parents = [] := by
  induction ps generalizing kids with
  | nil => rfl
  | cons x ps ih => exact ih _

theorem set_returns {h : DStore} {r : Nat} {d : TD} (hd : DictIs h r d.kids d.parents) {a : DArg} {t : Tree} (ha : ArgIs h a t) (k : Key) :
    ∃ r' h', Returns (fun fuel up => setRun fuel up r k a h) (r', h') ∧ h <+: h' ∧ ObjIs h' r' none (d.set k t).kids := by
  obtain ⟨r', h', e, p, o⟩ := setRun_ok (fuel := upDepth (putKey d.kids k t) d.parents) d.parents (d.parents.length + 1) (k := k) hd ha (Nat.le_refl _) (by omega)
  exact ⟨r', h', ⟨max (upDepth (putKey d.kids k t) d.parents) (d.parents.length + 1), fun fuel up h1 h2 =>
    setRun_mono (by omega) (by omega) e⟩, p, o⟩

theorem new_returns {h : DStore} {as : List (Key × DArg)} {kids : List (Key × Tree)} (ha : ArgsAre h as kids) (parent : Option (Nat × Key)) :
    ∃ h', Returns (fun fuel _ => newDict fuel as parent h) (h.length, h') ∧ h <+: h' ∧ ObjIs h' h.length parent kids := by
  obtain ⟨h', e, p, o⟩ := newDict_ok (kidsDepth kids + 1) as parent h kids (by omega) ha
  exact ⟨h', ⟨kidsDepth kids + 1, fun fuel _ h1 _ => newDict_mono h1 e⟩, p, o⟩

theorem returns_inj {α : Type} {call : Nat → Nat → Option α} {x y : α} (hx : Returns call x) (hy : Returns call y) : x = y := by
  obtain ⟨m, hm⟩ := hx
  obtain ⟨n, hn⟩ := hy
  have h1 := hm (max m n) (max m n) (by omega) (by omega)
  have h2 := hn (max m n) (max m n) (by omega) (by omega)
  rw [h1] at h2
  exact Option.some.inj h2

theorem drop_returns {h : DStore} {r : Nat} {d : TD} (hd : DictIs h r d.kids d.parents) (k : Key) :
    ∃ r' h', Returns (fun fuel up => dropRun fuel up r k h) (r', h') ∧ h <+: h' ∧
      ObjIs h' r' none (TD.rebuild (d.kids.filter (fun e => decide (e.1 ≠ k))) d.parents).kids := by
  obtain ⟨kids, ps⟩ := d
  simp only at hd ⊢
  cases ps with
  | nil =>
    obtain ⟨o, o1, o2, o3⟩ := hd
    obtain ⟨h1, ⟨n, e⟩, p, q⟩ := new_returns (argsAre_entries _ (kidsAre_filter (fun x => decide (x ≠ k)) kids o3)) none
    refine ⟨_, h1, ⟨n, fun fuel up a b => ?_⟩, p, q⟩
    have := e fuel up a b
    simp only at this
    simp only [dropRun, o1, this, o2]
  | cons x ps =>
    obtain ⟨up, key⟩ := x
    obtain ⟨pp, ⟨o, o1, o2, o3⟩, hp⟩ := hd
    obtain ⟨h1, ⟨n, e⟩, p, q⟩ := new_returns (argsAre_entries _ (kidsAre_filter (fun x => decide (x ≠ k)) kids o3)) none
    obtain ⟨r2, h2, ⟨m, e2⟩, p2, q2⟩ := set_returns (d := ⟨up, ps⟩) (DictIs.mono p ps hp) (a := .ref h.length) ⟨_, _, rfl, q⟩ key
    refine ⟨r2, h2, ⟨max n m, fun fuel u a b => ?_⟩, p.trans p2, q2⟩
    have t1 := e fuel u (by omega) (by omega)
    have t2 := e2 fuel u (by omega) (by omega)
    simp only at t1 t2
    simp only [dropRun, o1, t1, o2]
    exact t2

theorem lookup_filter_other (kids : List (Key × Tree)) (k a : Key) :
    (kids.filter (fun e => decide (e.1 ≠ k))).lookup a = if a = k then none else kids.lookup a := by
  induction kids with
  | nil => simp
  | cons e kids ih =>
    obtain ⟨k', t⟩ := e
    rw [List.filter_cons, lookup_cons_if]
    by_cases hk : k' = k
    · subst hk
      simp only [ne_eq, not_true, decide_false, Bool.false_eq_true, if_false]
      rw [ih]
      by_cases ha : a = k'
      · rw [if_pos ha, if_pos ha]
      · rw [if_neg ha, if_neg ha, if_neg ha]
    · simp only [ne_eq, hk, not_false_iff, decide_true, if_true]
      rw [lookup_cons_if, ih]
      by_cases ha : a = k'
      · subst ha
        rw [if_pos rfl, if_neg hk, if_pos rfl]
      · rw [if_neg ha, if_neg ha]

theorem dropRun_reads (root e : TD) (ks : List Key) (hroot : root.parents = []) (h : goTo root ks = .ok e) (k : Key) :
    (∀ q, reads (.node (TD.rebuild (e.kids.filter (fun x => decide (x.1 ≠ k))) e.parents).kids) (ks ++ k :: q) = none) ∧
    (∀ p, ¬ (ks ++ [k]) <+: p → ¬ p <+: ks →
      reads (.node (TD.rebuild (e.kids.filter (fun x => decide (x.1 ≠ k))) e.parents).kids) p = reads (.node root.kids) p) ∧
    (∀ p, p <+: ks → ∃ x, reads (.node (TD.rebuild (e.kids.filter (fun x => decide (x.1 ≠ k))) e.parents).kids) p = some (.node x)) := by
  have hr := (goTo_rebuild root e ks h []).2
  rw [(goTo_rebuild root e ks h _).1, hroot, TD.rebuild]
  refine ⟨?_, ?_, ?_⟩
  · intro q
    rw [(reads_replaceAt root.kids ks e.kids _ hr _).1 (k :: q) rfl, reads, lookup_filter_other, if_pos rfl]
    rfl
  · intro p h1 h2
    by_cases h3 : ks <+: p
    · obtain ⟨q, rfl⟩ := h3
      cases q with
      | nil => exact absurd (by rw [List.append_nil]; exact List.prefix_refl _) h2
      | cons a q =>
        have ha : a ≠ k := by
          intro e
          subst e
          exact h1 ⟨q, by simp⟩
        rw [(reads_replaceAt root.kids ks e.kids _ hr _).1 (a :: q) rfl, reads_append, hr]
        show _ = reads (.node e.kids) (a :: q)
        rw [reads, reads, lookup_filter_other, if_neg ha]
    · exact (reads_replaceAt root.kids ks e.kids _ hr p).2.1 h3 h2
  · intro p hp
    exact (reads_replaceAt root.kids ks e.kids _ hr p).2.2 hp

theorem writesRun_all {h h' : DStore} {r r' : Nat} {ws : List Write} (hw : WritesRun h r ws h' r') : ∀ {kids : List (Key × Tree)}, ObjIs h r none kids →
    h <+: h' ∧ ∃ root', writeAll ⟨kids, []⟩ ws = .ok root' ∧ root'.parents = [] ∧ ObjIs h' r' none root'.kids := by
  induction hw with
  | nil h r => exact fun ho => ⟨List.prefix_refl _, _, rfl, rfl, ho⟩
  | @cons h h1 h2 r d r1 r2 w ws hd hs _ ih =>
    intro kids ho
    obtain ⟨c, c1, c2⟩ := dictIs_walk w.path (d := ⟨kids, []⟩) ho hd
    obtain ⟨r3, h3, e3, p3, o3⟩ := set_returns c2 (a := .plain (.leaf w.value)) (t := .leaf w.value) rfl w.key
    have := returns_inj e3 hs
    cases this
    obtain ⟨q1, root', q2, q3, q4⟩ := ih o3
    refine ⟨p3.trans q1, root', ?_, q3, q4⟩
    have hp : c.set w.key (.leaf w.value) = ⟨(c.set w.key (.leaf w.value)).kids, []⟩ := by
      have := rebuild_parents (putKey c.kids w.key (.leaf w.value)) c.parents
      rw [← this]
      rfl
    rw [writeAll, c1]
    show writeAll (c.set w.key (.leaf w.value)) ws = _
    rw [hp]
    exact q2

end Verif.Proofs
