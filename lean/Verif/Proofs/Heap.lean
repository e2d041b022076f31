import Verif.Spec.Heap

/-! Lemmas on list objects (C101). -/
namespace Verif.Proofs.Heap
open Verif.Model Verif.Spec Verif.Py

/-- the objects of `h` are in `k` as they are -/
def Extends (h k : Heap) : Prop := ∀ (r : Nat) items, h[r]? = some items → k[r]? = some items

theorem Extends.refl (h : Heap) : Extends h h := fun _ _ e => e
theorem Extends.trans {a b c : Heap} (x : Extends a b) (y : Extends b c) : Extends a c := fun r i e => y r i (x r i e)

mutual
theorem holds_mono {h k : Heap} (e : Extends h k) : ∀ {x v}, Holds h x v → Holds k x v
  | _, _, .atom n => .atom n
  | _, _, .ref c a => .ref (e _ _ c) (holdAll_mono e a)
theorem holdAll_mono {h k : Heap} (e : Extends h k) : ∀ {xs vs}, HoldAll h xs vs → HoldAll k xs vs
  | _, _, .nil => .nil
  | _, _, .cons a b => .cons (holds_mono e a) (holdAll_mono e b)
end

mutual
theorem read_holds {h : Heap} (b : Built h) : ∀ {x v}, Holds h x v → ∀ f, (∀ r, x = .ref r → r < f) → h.read f x = v
  | _, _, .atom n, f, _ => by cases f <;> rfl
  | _, _, .ref (r := r) (items := items) c a, f, hf => by
    obtain ⟨g, rfl⟩ : ∃ g, f = g + 1 := ⟨f - 1, by have := hf r rfl; omega⟩
    have hr := hf r rfl
    rw [Heap.read]
    have := readAll_holds b a g (fun s hs => by have := b r items c s hs; omega)
    rw [List.getD_eq_getElem?_getD, c]
    simp only [Option.getD_some]
    rw [this]
theorem readAll_holds {h : Heap} (b : Built h) : ∀ {xs vs}, HoldAll h xs vs → ∀ f, (∀ s, HVal.ref s ∈ xs → s < f) → xs.map (h.read f) = vs
  | _, _, .nil, _, _ => rfl
  | _, _, .cons x y, f, hf => by
    rw [List.map_cons, read_holds b x f (fun r e => hf r (by rw [e]; exact List.mem_cons_self)),
      readAll_holds b y f (fun s hs => hf s (List.mem_cons_of_mem _ hs))]
end

theorem holds_lt {h : Heap} {r v} (a : Holds h (.ref r) v) : r < h.length := by
  cases a with
  | ref c _ => exact (List.getElem?_eq_some_iff.mp c).1

theorem read_full {h : Heap} (b : Built h) {x v} (a : Holds h x v) : h.read (h.length + 1) x = v :=
  read_holds b a _ (fun r e => by subst e; have := holds_lt a; omega)

theorem eq_holds {h : Heap} (b : Built h) {x y v w} (a : Holds h x v) (c : Holds h y w) : h.eq x y = v.eq w := by
  unfold Heap.eq
  rw [read_full b a, read_full b c]

theorem holdAll_append {h : Heap} {xs ys vs ws} (a : HoldAll h xs vs) (b : HoldAll h ys ws) : HoldAll h (xs ++ ys) (vs ++ ws) := by
  induction xs generalizing vs with
  | nil => cases a; exact b
  | cons x xs ih => cases a with | cons p q => exact .cons p (ih q)

theorem holdAll_lt {h : Heap} {xs vs s} (a : HoldAll h xs vs) (m : HVal.ref s ∈ xs) : s < h.length := by
  induction xs generalizing vs with
  | nil => cases m
  | cons x xs ih =>
    cases a with
    | cons p q =>
      rcases List.mem_cons.mp m with e | e
      · exact holds_lt (e ▸ p)
      · exact ih q e

theorem extends_alloc (h : Heap) (items : List HVal) : Extends h (h.alloc items).1 := by
  intro r i e
  have := (List.getElem?_eq_some_iff.mp e).1
  show (h ++ [items])[r]? = _
  rw [List.getElem?_append_left this]; exact e

theorem built_alloc {h : Heap} (b : Built h) {items vs} (a : HoldAll h items vs) : Built (h.alloc items).1 := by
  intro r i e s m
  change (h ++ [items])[r]? = some i at e
  by_cases hr : r < h.length
  · rw [List.getElem?_append_left hr] at e; exact b r i e s m
  · have := (List.getElem?_eq_some_iff.mp e).1
    simp only [List.length_append, List.length_cons, List.length_nil] at this
    obtain rfl : r = h.length := by omega
    rw [List.getElem?_append_right (Nat.le_refl _)] at e
    simp only [Nat.sub_self, List.getElem?_cons_zero, Option.some.injEq] at e
    subst e
    exact holdAll_lt a m

theorem holds_alloc {h : Heap} {items vs} (a : HoldAll h items vs) : Holds (h.alloc items).1 (h.alloc items).2 (.list vs) := by
  refine .ref (items := items) ?_ (holdAll_mono (extends_alloc h items) a)
  show (h ++ [items])[h.length]? = _
  simp

/-- what an operation on objects must do: the same as the operation on values, with every old object as it was -/
def Good (h : Heap) : Except PyErr (Heap × HVal) → Except PyErr Val → Prop
  | .error x, .error y => x = y
  | .ok (k, x), .ok v => Built k ∧ Extends h k ∧ Holds k x v
  | _, _ => False

theorem good_alloc {h : Heap} (b : Built h) {items vs} (a : HoldAll h items vs) : Good h (.ok (h.alloc items)) (.ok (.list vs)) :=
  ⟨built_alloc b a, extends_alloc h items, holds_alloc a⟩

theorem good_same {h : Heap} (b : Built h) {x v} (a : Holds h x v) : Good h (.ok (h, x)) (.ok v) := ⟨b, Extends.refl h, a⟩

theorem getD_items {h : Heap} {r items} (c : h[r]? = some items) : h.getD r [] = items := by
  rw [List.getD_eq_getElem?_getD, c]; rfl

theorem add_atom {a b c : Val} (na : ∀ l, a ≠ .list l) (nb : ∀ l, b ≠ .list l) (e : a.add b = .ok c) : ∀ l, c ≠ .list l := by
  unfold Val.add at e
  split at e
  · cases e; intro l x; cases x
  · exact absurd rfl (na _)
  · split at e
    · cases e; intro l x; cases x
    · cases e

theorem sub_atom {a b c : Val} (e : a.sub b = .ok c) : ∀ l, c ≠ .list l := by
  unfold Val.sub at e
  split at e
  · cases e; intro l x; cases x
  · cases e

theorem add_list_left (l : List Val) (b : Val) (nb : ∀ l, b ≠ .list l) : (Val.list l).add b = .error .typeError := by
  cases b <;> first | rfl | exact absurd rfl (nb _)

theorem add_list_right (l : List Val) (a : Val) (na : ∀ l, a ≠ .list l) : a.add (Val.list l) = .error .typeError := by
  cases a <;> first | rfl | exact absurd rfl (na _)

theorem good_add {h : Heap} (bt : Built h) {x y v w} (a : Holds h x v) (b : Holds h y w) : Good h (h.add x y) (v.add w) := by
  cases a with
  | atom n =>
    cases b with
    | atom m =>
      show Good h (do pure (h, .atom (← v.add w))) (v.add w)
      cases e : v.add w with
      | error _ => rfl
      | ok c => exact good_same bt (.atom (add_atom n m e))
    | ref c q => rw [add_list_right _ _ n]; rfl
  | ref c p =>
    cases b with
    | atom m => rw [add_list_left _ _ m]; rfl
    | ref d q =>
      show Good h (.ok (h.alloc (h.getD _ [] ++ h.getD _ []))) (.ok (.list _))
      rw [getD_items c, getD_items d]
      exact good_alloc bt (holdAll_append p q)

theorem good_sub {h : Heap} (bt : Built h) {x y v w} (a : Holds h x v) (b : Holds h y w) : Good h (h.sub x y) (v.sub w) := by
  cases a with
  | atom n =>
    cases b with
    | atom m =>
      show Good h (do pure (h, .atom (← v.sub w))) (v.sub w)
      cases e : v.sub w with
      | error _ => rfl
      | ok c => exact good_same bt (.atom (sub_atom e))
    | ref c q => cases v <;> rfl
  | ref c p => cases y <;> rfl

/-- `list.remove` on the items -/
theorem without_holds {h k : Heap} (bk : Built k) (ek : Extends h k) {y w} (b : Holds h y w) {xs vs} (a : HoldAll h xs vs) :
    match k.without y xs, listRemove vs w with
    | .error x, .error z => x = z
    | .ok l, .ok m => HoldAll h l m
    | _, _ => False := by
  induction xs generalizing vs with
  | nil => cases a; rfl
  | cons x xs ih =>
    cases a with
    | cons p q =>
      rename_i v vs
      have := ih q
      rw [Heap.without, listRemove, eq_holds bk (holds_mono ek p) (holds_mono ek b)]
      by_cases e : v.eq w = true
      · simp only [e, if_true]; exact q
      · simp only [e]
        cases e1 : k.without y xs <;> cases e2 : listRemove vs w <;> rw [e1, e2] at this <;> simp only at this
        · exact this
        · exact .cons p this

theorem extends_set {h k : Heap} (e : Extends h k) (items : List HVal) : Extends h (k.set h.length items) := by
  intro r i c
  have := (List.getElem?_eq_some_iff.mp c).1
  rw [List.getElem?_set_ne (by omega)]
  exact e r i c

theorem built_set {h k : Heap} (b : Built k) {items vs} (a : HoldAll h items vs) : Built (k.set h.length items) := by
  intro r i c s m
  by_cases e : h.length = r
  · subst e
    have hl := (List.getElem?_eq_some_iff.mp c).1
    rw [List.length_set] at hl
    rw [List.getElem?_set_self hl] at c
    cases c
    exact holdAll_lt a m
  · rw [List.getElem?_set_ne e] at c
    exact b r i c s m

theorem removeEach_holds {h : Heap} {ys ws} (b : HoldAll h ys ws) : ∀ {k : Heap} {xs vs}, Built k → Extends h k → k[h.length]? = some xs →
    HoldAll h xs vs →
    match k.removeEach h.length ys, removeLoop vs ws with
    | .error x, .error z => x = z
    | .ok l, .ok m => Built l ∧ Extends h l ∧ ∃ zs, l[h.length]? = some zs ∧ HoldAll h zs m
    | _, _ => False := by
  induction ys generalizing ws with
  | nil => intro k xs vs bk ek c a; cases b; exact ⟨bk, ek, xs, c, a⟩
  | cons y ys ih =>
    intro k xs vs bk ek c a
    cases b with
    | cons p q =>
      rename_i w ws
      have key := without_holds bk ek p a
      rw [Heap.removeEach, removeLoop, getD_items c]
      cases e1 : k.without y xs with
      | error x =>
        cases e2 : listRemove vs w with
        | error z => rw [e1, e2] at key; exact key
        | ok m => rw [e1, e2] at key; exact key.elim
      | ok l =>
        cases e2 : listRemove vs w with
        | error z => rw [e1, e2] at key; exact key.elim
        | ok m =>
          rw [e1, e2] at key
          exact ih q (built_set bk key) (extends_set ek l)
            (List.getElem?_set_self (List.getElem?_eq_some_iff.mp c).1) key

theorem holdAll_chars (h : Heap) (s : Str) : HoldAll h (s.map (fun c => .atom (.str [c]))) (s.map (fun c => .str [c])) := by
  induction s with
  | nil => exact .nil
  | cons c s ih => exact .cons (.atom (fun l e => by cases e)) ih

theorem iter_holds {h k : Heap} (ek : Extends h k) {y w} (b : Holds h y w) :
    match k.iter y, w.iter with
    | .error x, .error z => x = z
    | .ok l, .ok m => HoldAll h l m
    | _, _ => False := by
  cases b with
  | ref c q =>
    show HoldAll h (k.getD _ []) _
    rw [getD_items (ek _ _ c)]
    exact q
  | atom n =>
    cases w with
    | list l => exact absurd rfl (n l)
    | str s => exact holdAll_chars h s
    | none => rfl
    | bool b => rfl
    | num m => rfl

theorem good_removeAll {h : Heap} (bt : Built h) {x y v w} (a : Holds h x v) (b : Holds h y w) : Good h (h.removeAll x y) (removeAll v w) := by
  cases a with
  | atom n => cases v <;> first | rfl | exact absurd rfl (n _)
  | ref c p =>
    rename_i r items vs
    show Good h (do
      let ws ← (h.alloc (h.getD r [])).1.iter y
      let h2 ← (h.alloc (h.getD r [])).1.removeEach h.length ws
      pure (h2, (h.alloc (h.getD r [])).2)) (do
      let ws ← w.iter
      let l ← removeLoop vs ws
      pure (.list l))
    rw [getD_items c]
    have i := iter_holds (extends_alloc h items) b
    cases e1 : (h.alloc items).1.iter y with
    | error z =>
      cases e2 : w.iter with
      | error z' => rw [e1, e2] at i; exact i
      | ok m => rw [e1, e2] at i; exact i.elim
    | ok l =>
      cases e2 : w.iter with
      | error z' => rw [e1, e2] at i; exact i.elim
      | ok m =>
        rw [e1, e2] at i
        have key := removeEach_holds i (built_alloc bt p) (extends_alloc h items) (xs := items) (by show (h ++ [items])[h.length]? = _; simp) p
        show Good h (do let h2 ← (h.alloc items).1.removeEach h.length l; pure (h2, (h.alloc items).2)) (do let l ← removeLoop vs m; pure (.list l))
        cases e3 : (h.alloc items).1.removeEach h.length l with
        | error z =>
          cases e4 : removeLoop vs m with
          | error z' => rw [e3, e4] at key; exact key
          | ok m => rw [e3, e4] at key; exact key.elim
        | ok k =>
          cases e4 : removeLoop vs m with
          | error z' => rw [e3, e4] at key; exact key.elim
          | ok m =>
            rw [e3, e4] at key
            obtain ⟨bk, ek, zs, cz, hz⟩ := key
            exact ⟨bk, ek, .ref cz (holdAll_mono ek hz)⟩

theorem good_callUpdate {h : Heap} (bt : Built h) (p : View) (u : Update) {x y v w} (a : Holds h x v) (b : Holds h y w) :
    Good h (h.callUpdate p u x y) (callUpdate p u v w) := by
  unfold Heap.callUpdate callUpdate
  cases lookupFunc (.update u) (some p) with
  | error z => rfl
  | ok f =>
    cases f with
    | removeAll => exact good_removeAll bt a b
    | addGeneral => exact good_add bt a b
    | removeGeneral => exact good_sub bt a b
    | _ => rfl

theorem good_default {h : Heap} (bt : Built h) (p : View) : Good h (h.defaultValue p) (defaultValue p) := by
  unfold Heap.defaultValue defaultValue
  cases lookupFunc .defaultValue (some p) with
  | error z => rfl
  | ok f =>
    cases f with
    | defaultIndex => exact good_same bt (.atom (fun l e => by cases e))
    | emptyList => exact good_alloc bt .nil
    | _ => rfl

theorem good_newValue {h : Heap} (bt : Built h) {a : HCmd} {c : Cmd} (e : SameCmd h a c) {x v} (o : Holds h x v) :
    Good h (h.newValue a x) (newValue c v) := by
  obtain ⟨e1, e2, _, _, e3⟩ := e
  unfold Heap.newValue newValue
  rw [e2, e1]
  cases c.update with
  | replace => exact good_same bt e3
  | add => exact good_callUpdate bt _ _ o e3
  | remove => exact good_callUpdate bt _ _ o e3
  | resetDefault => exact good_default bt _
  | assertEqualOrSet => exact good_same bt e3
  | clear => rfl

theorem get_holds {h : Heap} {s : HState} {t : IState} (e : HoldState h s t) (k : Sub × View) : Holds h (s.get k) (t.get k) := by
  unfold HState.get IState.get
  induction e with
  | nil => exact .atom (fun l e => by cases e)
  | cons p q ih =>
    rename_i a b s t
    obtain ⟨a1, a2⟩ := a
    obtain ⟨b1, b2⟩ := b
    obtain ⟨rfl, p⟩ : a1 = b1 ∧ Holds h a2 b2 := p
    by_cases e : k = a1
    · subst e; simpa [List.lookup_cons] using p
    · have : (k == a1) = false := by simpa using e
      simpa only [List.lookup_cons, this] using ih

theorem put_holds {h : Heap} {s : HState} {t : IState} (e : HoldState h s t) (k : Sub × View) {x v} (o : Holds h x v) :
    HoldState h (putKey s k x) (putKey t k v) := by
  induction e with
  | nil => exact .cons ⟨rfl, o⟩ .nil
  | cons p q ih =>
    rename_i a b s t
    obtain ⟨a1, a2⟩ := a
    obtain ⟨b1, b2⟩ := b
    obtain ⟨rfl, p⟩ : a1 = b1 ∧ Holds h a2 b2 := p
    unfold putKey
    by_cases e : a1 = k
    · simp only [e, if_true]; exact .cons ⟨rfl, o⟩ q
    · simp only [e, if_false]; exact .cons ⟨rfl, p⟩ ih

theorem forall_mono {α β : Type} {R S : α → β → Prop} (i : ∀ a b, R a b → S a b) {l m} (e : List.Forall₂ R l m) : List.Forall₂ S l m := by
  induction e with
  | nil => exact .nil
  | cons p _ ih => exact .cons (i _ _ p) ih

theorem holdState_mono {h k : Heap} (e : Extends h k) {s t} (a : HoldState h s t) : HoldState k s t :=
  forall_mono (fun _ _ ⟨p, q⟩ => ⟨p, holds_mono e q⟩) a

theorem sameCmd_mono {h k : Heap} (e : Extends h k) {a c} (p : SameCmd h a c) : SameCmd k a c :=
  ⟨p.1, p.2.1, p.2.2.1, p.2.2.2.1, holds_mono e p.2.2.2.2⟩

theorem run_holds {as : List HCmd} : ∀ {h : Heap} {s : HState} {t : IState} {cs : List Cmd}, Built h → List.Forall₂ (SameCmd h) as cs →
    HoldState h s t → Extends h (hRun h s as).1 ∧ Built (hRun h s as).1 ∧
    List.Forall₂ (fun a b => Holds (hRun h s as).1 a.1 b.1 ∧ HoldState (hRun h s as).1 a.2 b.2) (hRun h s as).2.1 (valueRun t cs).1 ∧
    (hRun h s as).2.2 = (valueRun t cs).2 := by
  induction as with
  | nil => intro h s t cs b e _; cases e; exact ⟨Extends.refl h, b, .nil, rfl⟩
  | cons a as ih =>
    intro h s t cs b e hs
    cases e with
    | cons p q =>
      rename_i c cs
      have key := good_newValue b p (get_holds hs (c.sub, c.prop))
      have ke : (a.sub, a.prop) = (c.sub, c.prop) := by rw [p.1, p.2.2.1]
      rw [hRun, valueRun, ke]
      unfold interpret
      cases e1 : h.newValue a (s.get (c.sub, c.prop)) with
      | error x =>
        cases e2 : newValue c (t.get (c.sub, c.prop)) with
        | error y => rw [e1, e2] at key; cases key; exact ⟨Extends.refl h, b, .nil, rfl⟩
        | ok y => rw [e1, e2] at key; exact key.elim
      | ok kx =>
        obtain ⟨k, x⟩ := kx
        cases e2 : newValue c (t.get (c.sub, c.prop)) with
        | error y => rw [e1, e2] at key; exact key.elim
        | ok v =>
          rw [e1, e2] at key
          obtain ⟨bk, ek, hv⟩ := key
          have hs1 := put_holds (holdState_mono ek hs) (c.sub, c.prop) hv
          obtain ⟨r1, r2, r3, r4⟩ := ih bk (forall_mono (fun _ _ => sameCmd_mono ek) q) hs1
          exact ⟨ek.trans r1, r2, .cons ⟨holds_mono r1 hv, holdState_mono r1 hs1⟩ r3, r4⟩

end Verif.Proofs.Heap
