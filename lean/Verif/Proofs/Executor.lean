import Verif.Proofs.Command

/-! Nested dictionaries and the executor. -/
namespace Verif.Proofs
open Verif.Py Verif.Model Verif.Spec

/-! ### dictionaries -/

theorem lookup_cons_if {κ β : Type} [DecidableEq κ] [BEq κ] [LawfulBEq κ] (a k : κ) (b : β) (d : List (κ × β)) :
    ((a, b) :: d).lookup k = if k = a then some b else d.lookup k := by
  rw [List.lookup_cons]
  by_cases h : k = a
  · simp [h]
  · have : (k == a) = false := by simpa using h
    simp [h, this]

theorem lookup_putKey {κ β : Type} [DecidableEq κ] [BEq κ] [LawfulBEq κ] (d : List (κ × β)) (k k' : κ) (v : β) :
    (putKey d k v).lookup k' = if k' = k then some v else d.lookup k' := by
  induction d with
  | nil => rw [putKey, lookup_cons_if, List.lookup_nil]
  | cons e d ih =>
    obtain ⟨a, b⟩ := e
    rw [putKey]
    by_cases ha : a = k
    · subst ha
      rw [if_pos rfl, lookup_cons_if, lookup_cons_if]
      by_cases h : k' = a <;> simp [h]
    · rw [if_neg ha, lookup_cons_if, lookup_cons_if, ih]
      by_cases h : k' = a
      · subst h; simp [ha]
      · simp [h]

/-- a nested dictionary with the entries at a path replaced -/
def replaceAt (kids : List (Key × Tree)) : List Key → List (Key × Tree) → List (Key × Tree)
  | [], new => new
  | k :: ks, new =>
    match kids.lookup k with
    | some (.node sub) => putKey kids k (.node (replaceAt sub ks new))
    | _ => kids

theorem goTo_rebuild (d e : TD) (ks : List Key) (h : goTo d ks = .ok e) (new : List (Key × Tree)) :
    TD.rebuild new e.parents = TD.rebuild (replaceAt d.kids ks new) d.parents ∧
      reads (.node d.kids) ks = some (.node e.kids) := by
  induction ks generalizing d with
  | nil =>
    rw [goTo] at h
    cases h
    exact ⟨rfl, rfl⟩
  | cons k ks ih =>
    rw [goTo] at h
    simp only [bind_ok] at h
    obtain ⟨c, hc, h⟩ := h
    rw [TD.child] at hc
    cases hl : d.kids.lookup k with
    | none => rw [hl] at hc; simp at hc
    | some t =>
      rw [hl] at hc
      cases t with
      | leaf v => simp at hc
      | node sub =>
        simp only [Except.ok.injEq] at hc
        subst hc
        obtain ⟨h1, h2⟩ := ih _ h
        refine ⟨?_, ?_⟩
        · rw [h1, replaceAt, hl]
          rfl
        · rw [reads, hl]
          exact h2

theorem goTo_of_reads (d : TD) (ks : List Key) (kids : List (Key × Tree)) (h : reads (.node d.kids) ks = some (.node kids)) :
    ∃ e, goTo d ks = .ok e ∧ e.kids = kids := by
  induction ks generalizing d with
  | nil =>
    rw [reads] at h
    injection h with h
    injection h with h
    exact ⟨d, rfl, h⟩
  | cons k ks ih =>
    rw [reads] at h
    cases hl : d.kids.lookup k with
    | none => rw [hl] at h; simp at h
    | some t =>
      rw [hl] at h
      simp only [Option.bind_some] at h
      cases t with
      | leaf v => cases ks <;> simp [reads] at h
      | node sub =>
        obtain ⟨e, he, hk⟩ := ih ⟨sub, (d.kids, k) :: d.parents⟩ h
        refine ⟨e, ?_, hk⟩
        rw [goTo, TD.child, hl]
        exact he

theorem reads_replaceAt (kids : List (Key × Tree)) (ks : List Key) (sub new : List (Key × Tree))
    (h : reads (.node kids) ks = some (.node sub)) (p : List Key) :
    (∀ q, p = ks ++ q → reads (.node (replaceAt kids ks new)) p = reads (.node new) q) ∧
    (¬ ks <+: p → ¬ p <+: ks → reads (.node (replaceAt kids ks new)) p = reads (.node kids) p) ∧
    (p <+: ks → ∃ x, reads (.node (replaceAt kids ks new)) p = some (.node x)) := by
  induction ks generalizing kids p with
  | nil =>
    refine ⟨?_, ?_, ?_⟩
    · intro q hq; subst hq; rfl
    · intro h1; exact absurd List.nil_prefix h1
    · intro h1
      have : p = [] := List.prefix_nil.mp h1
      subst this
      exact ⟨new, rfl⟩
  | cons k ks ih =>
    rw [reads] at h
    cases hl : kids.lookup k with
    | none => rw [hl] at h; simp at h
    | some t =>
      rw [hl] at h
      simp only [Option.bind_some] at h
      cases t with
      | leaf v => cases ks <;> simp [reads] at h
      | node s =>
        rw [replaceAt, hl]
        simp only
        cases p with
        | nil =>
          refine ⟨fun q hq => by simp at hq, fun _ h2 => absurd List.nil_prefix h2, fun _ => ⟨_, rfl⟩⟩
        | cons a p =>
          rw [reads, lookup_putKey]
          by_cases ha : a = k
          · subst ha
            simp only [if_true, Option.bind_some]
            have ih := ih s h p
            refine ⟨?_, ?_, ?_⟩
            · intro q hq
              simp only [List.cons_append, List.cons.injEq, true_and] at hq
              exact ih.1 q hq
            · intro h1 h2
              rw [ih.2.1 (fun h => h1 (List.cons_prefix_cons.mpr ⟨rfl, h⟩)) (fun h => h2 (List.cons_prefix_cons.mpr ⟨rfl, h⟩)),
                reads, hl]
              rfl
            · intro h1
              exact ih.2.2 (List.cons_prefix_cons.mp h1).2
          · simp only [ha, if_false]
            refine ⟨?_, ?_, ?_⟩
            · intro q hq
              simp only [List.cons_append, List.cons.injEq] at hq
              exact absurd hq.1 ha
            · intro _ _; rfl
            · intro h1
              exact absurd (List.cons_prefix_cons.mp h1).1 ha

theorem reads_putKey_other (kids : List (Key × Tree)) (k : Key) (t : Tree) (a : Key) (q : List Key) (h : a ≠ k) :
    reads (.node (putKey kids k t)) (a :: q) = reads (.node kids) (a :: q) := by
  rw [reads, lookup_putKey, if_neg h, reads]

theorem reads_putKey_same (kids : List (Key × Tree)) (k : Key) (t : Tree) (q : List Key) :
    reads (.node (putKey kids k t)) (k :: q) = reads t q := by
  rw [reads, lookup_putKey, if_pos rfl]
  rfl

theorem reads_append (t : Tree) (p q : List Key) : reads t (p ++ q) = (reads t p).bind (fun s => reads s q) := by
  induction p generalizing t with
  | nil => rw [List.nil_append, reads]; rfl
  | cons a p ih =>
    cases t with
    | leaf v => rfl
    | node kids =>
      rw [List.cons_append, reads, reads]
      cases kids.lookup a with
      | none => rfl
      | some s => exact ih s

theorem set_root (root e : TD) (ks : List Key) (hroot : root.parents = []) (h : goTo root ks = .ok e) (k : Key) (t : Tree) :
    e.set k t = ⟨replaceAt root.kids ks (putKey e.kids k t), []⟩ := by
  rw [TD.set, (goTo_rebuild root e ks h _).1, hroot, TD.rebuild]

theorem set_reads (root e : TD) (ks : List Key) (hroot : root.parents = []) (h : goTo root ks = .ok e) (k : Key) (t : Tree) :
    (e.set k t).parents = [] ∧
    (∀ q, reads (.node (e.set k t).kids) (ks ++ k :: q) = reads t q) ∧
    (∀ p, ¬ (ks ++ [k]) <+: p → ¬ p <+: ks → reads (.node (e.set k t).kids) p = reads (.node root.kids) p) ∧
    (∀ p, p <+: ks → ∃ x, reads (.node (e.set k t).kids) p = some (.node x)) := by
  have hr := (goTo_rebuild root e ks h (putKey e.kids k t)).2
  rw [set_root root e ks hroot h]
  refine ⟨rfl, ?_, ?_, ?_⟩
  · intro q
    rw [(reads_replaceAt root.kids ks e.kids _ hr _).1 (k :: q) rfl, reads_putKey_same]
  · intro p h1 h2
    by_cases h3 : ks <+: p
    · obtain ⟨q, rfl⟩ := h3
      cases q with
      | nil => exact absurd (by rw [List.append_nil]; exact List.prefix_refl _) h2
      | cons a q =>
        have ha : a ≠ k := by
          intro e
          subst e
          exact h1 ⟨q, by simp⟩
        rw [(reads_replaceAt root.kids ks e.kids _ hr _).1 (a :: q) rfl, reads_putKey_other _ _ _ _ _ ha, reads_append, hr]
        rfl
    · exact (reads_replaceAt root.kids ks e.kids _ hr p).2.1 h3 h2
  · intro p hp
    exact (reads_replaceAt root.kids ks e.kids _ hr p).2.2 hp

theorem prefix_snoc {p ks : List Key} {k : Key} (h : p <+: ks) : p <+: ks ++ [k] := h.trans (List.prefix_append _ _)

theorem apart_set {p ks : List Key} {k : Key} (h : Apart p (ks ++ [k])) : ¬ (ks ++ [k]) <+: p ∧ ¬ p <+: ks :=
  ⟨h.2, fun h2 => h.1 (prefix_snoc h2)⟩

theorem writeAll_reads (ws : List Write) (root root' : TD) (hroot : root.parents = [])
    (h : writeAll root ws = .ok root') (p : List Key) (hp : ∀ w ∈ ws, w.full = p ∨ Apart p w.full) :
    root'.parents = [] ∧
    reads (.node root'.kids) p = (match lastWrite p ws with | some v => some (.leaf v) | none => reads (.node root.kids) p) := by
  induction ws generalizing root with
  | nil =>
    rw [writeAll] at h
    cases h
    exact ⟨hroot, rfl⟩
  | cons w ws ih =>
    rw [writeAll] at h
    simp only [bind_ok] at h
    obtain ⟨e, he, h⟩ := h
    have hs := set_reads root e w.path hroot he w.key (.leaf w.value)
    obtain ⟨h1, h2⟩ := ih _ hs.1 h (fun w' hw' => hp w' (by simp [hw']))
    refine ⟨h1, ?_⟩
    rw [h2]
    simp only [lastWrite, List.filter_cons]
    rcases hp w (by simp) with hw | hw
    · rw [if_pos (by simpa using hw), List.getLast?_cons]
      cases hl : (ws.filter (fun w => decide (w.full = p))).getLast? with
      | some x => simp
      | none =>
        simp only [Option.map_none, Option.getD_none, Option.map_some]
        rw [← hw, Write.full]
        exact hs.2.1 []
    · have hne : w.full ≠ p := by
        intro e
        rw [e] at hw
        exact hw.1 (List.prefix_refl _)
      rw [if_neg (by simpa using hne)]
      cases hl : (ws.filter (fun w => decide (w.full = p))).getLast? with
      | some x => simp
      | none =>
        simp only [Option.map_none]
        have := apart_set hw
        exact hs.2.2.1 p this.1 this.2

/-! ### the executor -/

/-- path to the dictionary holding the properties a command addresses -/
def viewPath (sub : Sub) (v : View) : List Key := (placeOf sub v).dropLast

theorem placeOf_eq (sub : Sub) (v : View) : placeOf sub v = viewPath sub v ++ [.prop v] := by
  unfold viewPath placeOf
  split <;> rfl

theorem stateValue_eq (d : TD) (c : Cmd) (h : Addressed c) : stateValue d c = goTo d (viewPath c.sub c.prop) := by
  obtain ⟨_, h⟩ := h
  rw [stateValue]
  unfold viewPath placeOf
  cases hs : c.prop.scope with
  | game =>
    simp only [List.dropLast, goTo]
    cases d.child (.scope .game) with
    | error e => rfl
    | ok x =>
      simp only [bind, Except.bind]
      cases x.child (.text "single".toList) <;> rfl
  | record =>
    simp only [List.dropLast, goTo]
    cases d.child (.scope .record) with
    | error e => rfl
    | ok x =>
      simp only [bind, Except.bind]
      cases x.child (.text "single".toList) <;> rfl
  | player =>
    rw [hs] at h
    obtain ⟨p, hp⟩ := h
    have e1 : playerId c.sub = .ok p := by
      rw [hp]
      exact (by decide : ∀ p : Fin 4, playerId (.num (p.val : Int)) = .ok p) p
    have e2 : Fin.ofNat 4 (p.val : Int).toNat = p := by
      rw [Int.toNat_natCast]
      exact Fin.ofNat_val_eq_self p
    rw [e1, hp]
    simp only [List.dropLast, goTo, e2]
    cases d.child (.scope .player) with
    | error e => rfl
    | ok x =>
      simp only [bind, Except.bind]
      cases x.child (.player p) <;> rfl

def timePath : List Key := [.text "global".toList, .text "time".toList]
def stampPath : List Key := timePath ++ [.text "timestamp".toList]

theorem stamped_eq (d : TD) (c : Cmd) : stamped d c = (do
    let t ← goTo d timePath
    pure (t.set (.text "timestamp".toList) (.leaf (stamp c.timestamp)))) := by
  rw [stamped, timePath, goTo]
  cases d.child (.text "global".toList) with
  | error e => rfl
  | ok x =>
    simp only [bind, Except.bind, goTo]
    cases x.child (.text "time".toList) <;> rfl

/-- a key of a property somebody may ask for -/
def GoodKey (sub : Sub) (v : View) : Prop :=
  match v.scope with
  | .player => ∃ p : Fin 4, sub = .num (p.val : Int)
  | _ => sub = Sub.all

/-- the executor's tree and the interpreter's dictionary agree -/
structure Agree (d : TD) (s : IState) : Prop where
  root : d.parents = []
  time : ∃ kids, reads (.node d.kids) timePath = some (.node kids)
  dirs : ∀ sub v, GoodKey sub v → ∃ kids, reads (.node d.kids) (viewPath sub v) = some (.node kids)
  vals : ∀ sub v, GoodKey sub v → reads (.node d.kids) (placeOf sub v) = (s.lookup (sub, v)).map Tree.leaf

theorem place_inj {sub sub' : Sub} {v v' : View} (h : GoodKey sub v) (h' : GoodKey sub' v')
    (e : placeOf sub v = placeOf sub' v') : (sub, v) = (sub', v') := by
  rw [placeOf_eq, placeOf_eq] at e
  have ev : v = v' := by
    have := congrArg List.getLast? e
    simpa using this
  subst ev
  have e2 := List.append_inj_left' e rfl
  unfold GoodKey at h h'
  unfold viewPath placeOf at e2
  cases hs : v.scope with
  | game => rw [hs] at h h'; simp at h h'; rw [h, h']
  | record => rw [hs] at h h'; simp at h h'; rw [h, h']
  | player =>
    rw [hs] at h h' e2
    obtain ⟨p, rfl⟩ := h
    obtain ⟨p', rfl⟩ := h'
    simp only [List.dropLast, List.cons.injEq, Key.player.injEq, true_and, and_true, Int.toNat_natCast] at e2
    have a : Fin.ofNat 4 p.val = p := Fin.ofNat_val_eq_self p
    have b : Fin.ofNat 4 p'.val = p' := Fin.ofNat_val_eq_self p'
    rw [a, b] at e2
    rw [e2]

theorem viewPath_len (sub : Sub) (v : View) : (viewPath sub v).length = 2 := by
  unfold viewPath placeOf
  split <;> rfl
theorem placeOf_len (sub : Sub) (v : View) : (placeOf sub v).length = 3 := by
  rw [placeOf_eq]; simp [viewPath_len]

/-- paths of the same length that differ are apart -/
theorem apart_of_ne {p q : List Key} (hl : p.length = q.length) (h : p ≠ q) : Apart p q :=
  ⟨fun h2 => h (h2.eq_of_length hl), fun h2 => h (h2.eq_of_length hl.symm).symm⟩

theorem timePath_ne_view (sub : Sub) (v : View) : timePath ≠ viewPath sub v := by
  unfold viewPath placeOf timePath
  split <;> simp

def isEmptyNode : Option Tree → Bool
  | some (.node []) => true
  | _ => false

theorem isEmptyNode_eq {t : Option Tree} (h : isEmptyNode t = true) : t = some (.node []) := by
  unfold isEmptyNode at h
  split at h
  · rfl
  · simp at h

theorem initial_dirs (sub : Sub) (v : View) (h : GoodKey sub v) :
    reads (.node initialTree.kids) (viewPath sub v) = some (.node []) := by
  unfold GoodKey at h
  unfold viewPath placeOf
  cases hs : v.scope with
  | game =>
    simp only [List.dropLast]
    exact isEmptyNode_eq (by decide +kernel)
  | record =>
    simp only [List.dropLast]
    exact isEmptyNode_eq (by decide +kernel)
  | player =>
    rw [hs] at h
    obtain ⟨p, rfl⟩ := h
    simp only [List.dropLast, Int.toNat_natCast]
    have a : Fin.ofNat 4 p.val = p := Fin.ofNat_val_eq_self p
    rw [a]
    exact isEmptyNode_eq ((by decide +kernel :
      ∀ p : Fin 4, isEmptyNode (reads (.node initialTree.kids) [.scope .player, .player p]) = true) p)

theorem agree_initial : Agree initialTree [] := by
  refine ⟨rfl, ⟨[], isEmptyNode_eq (by decide +kernel)⟩, fun sub v h => ⟨[], initial_dirs sub v h⟩, ?_⟩
  intro sub v h
  rw [placeOf_eq, reads_append, initial_dirs sub v h]
  rfl

theorem lookup_iset (s : IState) (k k' : Sub × View) (v : Val) :
    (s.set k v).lookup k' = if k' = k then some v else s.lookup k' := lookup_putKey s k k' v

theorem good_of_addressed {c : Cmd} (h : Addressed c) : GoodKey c.sub c.prop := h.2

/-- setting a property in both keeps them in agreement -/
theorem agree_set {d : TD} {s : IState} (ha : Agree d s) {c : Cmd} (hc : Addressed c) (e : TD)
    (he : goTo d (viewPath c.sub c.prop) = .ok e) (v : Val) :
    Agree (e.set (.prop c.prop) (.leaf v)) (s.set (c.sub, c.prop) v) := by
  have hs := set_reads d e _ ha.root he (.prop c.prop) (.leaf v)
  rw [← placeOf_eq] at hs
  have short : ∀ p : List Key, p.length = 2 → p ≠ viewPath c.sub c.prop →
      reads (.node (e.set (.prop c.prop) (.leaf v)).kids) p = reads (.node d.kids) p := by
    intro p hp hne
    apply hs.2.2.1 p
    · intro h
      have := h.length_le
      rw [placeOf_len] at this
      omega
    · intro h
      exact hne (h.eq_of_length (by rw [hp, viewPath_len]))
  refine ⟨hs.1, ?_, ?_, ?_⟩
  · obtain ⟨kids, hk⟩ := ha.time
    exact ⟨kids, by rw [short timePath rfl (timePath_ne_view _ _), hk]⟩
  · intro sub w hg
    by_cases hw : viewPath sub w = viewPath c.sub c.prop
    · rw [hw]
      exact hs.2.2.2 _ (List.prefix_refl _)
    · obtain ⟨kids, hk⟩ := ha.dirs sub w hg
      exact ⟨kids, by rw [short _ (viewPath_len _ _) hw, hk]⟩
  · intro sub w hg
    rw [lookup_iset]
    by_cases hw : (sub, w) = (c.sub, c.prop)
    · rw [if_pos hw]
      have e1 : sub = c.sub := congrArg Prod.fst hw
      have e2 : w = c.prop := congrArg Prod.snd hw
      rw [e1, e2, placeOf_eq]
      exact hs.2.1 []
    · rw [if_neg hw, ← ha.vals sub w hg]
      have hne : placeOf sub w ≠ placeOf c.sub c.prop := fun h => hw (place_inj hg (good_of_addressed hc) h)
      have hap := apart_of_ne (by rw [placeOf_len, placeOf_len]) hne
      rw [placeOf_eq c.sub] at hap
      have := apart_set hap
      rw [← placeOf_eq] at this
      exact hs.2.2.1 _ this.1 this.2

/-- what a property reads in its dictionary -/
theorem get_of_agree {d : TD} {s : IState} (ha : Agree d s) {c : Cmd} (hc : Addressed c) :
    ∃ e, goTo d (viewPath c.sub c.prop) = .ok e ∧ e.get (.prop c.prop) = .ok (s.get (c.sub, c.prop)) ∧
      e.has (.prop c.prop) = (s.lookup (c.sub, c.prop)).isSome := by
  obtain ⟨kids, hk⟩ := ha.dirs c.sub c.prop (good_of_addressed hc)
  obtain ⟨e, he, hek⟩ := goTo_of_reads d _ kids hk
  have hv := ha.vals c.sub c.prop (good_of_addressed hc)
  rw [placeOf_eq, reads_append, hk] at hv
  simp only [Option.bind_some, reads] at hv
  subst hek
  refine ⟨e, he, ?_, ?_⟩
  · rw [TD.get, IState.get]
    cases hl : s.lookup (c.sub, c.prop) with
    | none =>
      rw [hl] at hv
      cases ht : e.kids.lookup (.prop c.prop) with
      | none => rfl
      | some t => rw [ht] at hv; simp at hv
    | some v =>
      rw [hl] at hv
      cases ht : e.kids.lookup (.prop c.prop) with
      | none => rw [ht] at hv; simp at hv
      | some t =>
        rw [ht] at hv
        simp at hv
        rw [hv]
        rfl
  · rw [TD.has]
    cases hl : s.lookup (c.sub, c.prop) with
    | none =>
      rw [hl] at hv
      cases ht : e.kids.lookup (.prop c.prop) with
      | none => rfl
      | some t => rw [ht] at hv; simp at hv
    | some v =>
      rw [hl] at hv
      cases ht : e.kids.lookup (.prop c.prop) with
      | none => rw [ht] at hv; simp at hv
      | some t => rfl

theorem interpret_eq (s : IState) (c : Cmd) : interpret s c =
    (match newValue c (s.get (c.sub, c.prop)) with
     | .ok v => .ok (v, s.set (c.sub, c.prop) v)
     | .error e => .error e) := by
  rw [interpret]
  cases newValue c (s.get (c.sub, c.prop)) <;> rfl

/-- one command, executed, in terms of the interpreter -/
theorem step_eq {d : TD} {s : IState} (ha : Agree d s) {c : Cmd} (hc : Addressed c) :
    match newValue c (s.get (c.sub, c.prop)) with
    | .error e => ∀ strict, executeUpdate strict c d = .error e
    | .ok v => ∃ d', Agree d' (s.set (c.sub, c.prop) v) ∧
        ∀ strict, executeUpdate strict c d =
          if c.update = .assertEqualOrSet ∧ (s.lookup (c.sub, c.prop)).isSome = true then
            (match checkEqual c.prop v (s.get (c.sub, c.prop)) with
             | .error e => .error e
             | .ok b => if strict && !b then .error .assertionError else .ok d')
          else .ok d' := by
  obtain ⟨e, he, hg, hh⟩ := get_of_agree ha hc
  have hx : ∀ strict, executeUpdate strict c d = (do
      let new ← newValue c (s.get (c.sub, c.prop))
      if c.update = .assertEqualOrSet ∧ (s.lookup (c.sub, c.prop)).isSome = true then
        let isEqual ← checkEqual c.prop new (s.get (c.sub, c.prop))
        if strict && !isEqual then .error .assertionError
        else pure (e.set (.prop c.prop) (.leaf new))
      else pure (e.set (.prop c.prop) (.leaf new))) := by
    intro strict
    rw [executeUpdate, stateValue_eq d c hc, he]
    simp only [bind, Except.bind, hg, hh]
  cases hn : newValue c (s.get (c.sub, c.prop)) with
  | error x =>
    intro strict
    rw [hx, hn]
    rfl
  | ok v =>
    refine ⟨e.set (.prop c.prop) (.leaf v), agree_set ha hc e he v, fun strict => ?_⟩
    rw [hx, hn]
    simp only [bind, Except.bind]
    by_cases hcond : c.update = .assertEqualOrSet ∧ (s.lookup (c.sub, c.prop)).isSome = true
    · rw [if_pos hcond, if_pos hcond]
      cases checkEqual c.prop v (s.get (c.sub, c.prop)) <;> rfl
    · rw [if_neg hcond, if_neg hcond]
      rfl

theorem stamped_ok {d : TD} {s : IState} (ha : Agree d s) (c : Cmd) :
    ∃ y, stamped d c = .ok y ∧ reads (.node y.kids) stampPath = some (.leaf (stamp c.timestamp)) ∧
      ∀ sub v, GoodKey sub v → reads (.node y.kids) (placeOf sub v) = (s.lookup (sub, v)).map Tree.leaf := by
  obtain ⟨kids, hk⟩ := ha.time
  obtain ⟨e, he, _⟩ := goTo_of_reads d _ kids hk
  have hs := set_reads d e _ ha.root he (.text "timestamp".toList) (.leaf (stamp c.timestamp))
  refine ⟨_, by rw [stamped_eq, he]; rfl, hs.2.1 [], ?_⟩
  intro sub v hg
  rw [← ha.vals sub v hg]
  have hne : placeOf sub v ≠ stampPath := by
    rw [placeOf_eq, stampPath]
    intro h
    exact timePath_ne_view sub v (List.append_inj_left' h rfl).symm
  have hap := apart_of_ne (by rw [placeOf_len]; rfl) hne
  have := apart_set (k := .text "timestamp".toList) (ks := timePath) hap
  exact hs.2.2.1 _ this.1 this.2

theorem iter_err {v : Val} {e : PyErr} (h : v.iter = .error e) : e = .typeError := by
  unfold Val.iter at h
  split at h <;> simp_all

theorem removeLoop_errs (vs l : List Val) (e : PyErr) (h : removeLoop l vs = .error e) : e = .valueError := by
  by_cases hx : ∃ x, occ x l < occ x vs
  · obtain ⟨x, hx⟩ := hx
    rw [removeLoop_err vs l x hx] at h
    injection h with h
    exact h.symm
  · obtain ⟨r, hr, _⟩ := removeLoop_ok vs l (fun x => by
      by_cases h : occ x l < occ x vs
      · exact absurd ⟨x, h⟩ hx
      · omega)
    rw [hr] at h
    simp at h

theorem newValue_not_assert {c : Cmd} {k : PropKind} (hk : HasKind c.prop k) (old : Val) :
    newValue c old ≠ .error .assertionError := by
  rw [newValue]
  split
  · simp
  · rw [add_kind hk]
    unfold Val.add
    split
    · simp
    · simp
    · split <;> simp
  · rw [remove_kind hk]
    split
    · unfold removeAll
      split
      · next l =>
        cases hi : c.value.iter with
        | error e =>
          have := iter_err hi
          subst this
          simp [bind, Except.bind]
        | ok vs =>
          cases hr : removeLoop l vs with
          | error e =>
            have := removeLoop_errs vs l e hr
            subst this
            simp [bind, Except.bind, hr]
          | ok r => simp [bind, Except.bind, hr, pure, Except.pure]
      · simp
    · unfold Val.sub
      split <;> simp
  · rw [default_kind hk]
    split
    · simp
    · split <;> simp
  · simp
  · simp

/-! ### runs -/

theorem interpretAll_append (s : IState) (a b : List Cmd) :
    interpretAll s (a ++ b) = (do interpretAll (← interpretAll s a) b) := by
  induction a generalizing s with
  | nil => rfl
  | cons c a ih =>
    rw [List.cons_append, interpretAll, interpretAll]
    cases interpret s c with
    | error e => rfl
    | ok r => exact ih r.2

/-- what a yielded state shows -/
def Shows (y : TD) (s : IState) (c : Cmd) : Prop :=
  reads (.node y.kids) stampPath = some (.leaf (stamp c.timestamp)) ∧
    ∀ sub v, GoodKey sub v → reads (.node y.kids) (placeOf sub v) = (s.lookup (sub, v)).map Tree.leaf

/-- the run from any point on -/
theorem run_from (strict : Bool) (cs : List Cmd) (hcs : ∀ c ∈ cs, Addressed c) (d : TD) (s : IState) (ha : Agree d s) :
    ((executeFrom strict d cs).2 = none → (executeFrom strict d cs).1.length = cs.length) ∧
    (∀ (k : Nat) y, (executeFrom strict d cs).1[k]? = some y → ∃ c s', cs[k]? = some c ∧
      interpretAll s (cs.take (k + 1)) = .ok s' ∧ Shows y s' c) ∧
    (∀ e, (executeFrom strict d cs).2 = some e → ∃ c s', cs[(executeFrom strict d cs).1.length]? = some c ∧
      interpretAll s (cs.take (executeFrom strict d cs).1.length) = .ok s' ∧
      (newValue c (s'.get (c.sub, c.prop)) = .error e ∨
        (∃ v, newValue c (s'.get (c.sub, c.prop)) = .ok v ∧ c.update = .assertEqualOrSet ∧
          ∃ old, s'.lookup (c.sub, c.prop) = some old ∧
          (checkEqual c.prop v old = .error e ∨ (strict = true ∧ e = .assertionError ∧ checkEqual c.prop v old = .ok false))))) := by
  induction cs generalizing d s with
  | nil =>
    refine ⟨fun _ => rfl, ?_, ?_⟩
    · intro k y h; simp [executeFrom] at h
    · intro e h; simp [executeFrom] at h
  | cons c cs ih =>
    have hc := hcs c (by simp)
    have hcs' : ∀ c ∈ cs, Addressed c := fun c h => hcs c (by simp [h])
    have hstep := step_eq ha hc
    cases hn : newValue c (s.get (c.sub, c.prop)) with
    | error x =>
      rw [hn] at hstep
      have hstep := hstep strict
      have e1 : executeFrom strict d (c :: cs) = ([], some x) := by rw [executeFrom, hstep]
      rw [e1]
      refine ⟨by simp, by simp, ?_⟩
      intro e he
      simp only [Option.some.injEq] at he
      subst he
      exact ⟨c, s, rfl, rfl, .inl hn⟩
    | ok v =>
      rw [hn] at hstep
      obtain ⟨d', ha', hu⟩ := hstep
      have hu := hu strict
      have hint : interpret s c = .ok (v, s.set (c.sub, c.prop) v) := by rw [interpret_eq, hn]
      cases hx : executeUpdate strict c d with
      | error x =>
        have e1 : executeFrom strict d (c :: cs) = ([], some x) := by rw [executeFrom, hx]
        rw [e1]
        refine ⟨by simp, by simp, ?_⟩
        intro e he
        simp only [Option.some.injEq] at he
        subst he
        refine ⟨c, s, rfl, rfl, .inr ⟨v, hn, ?_⟩⟩
        rw [hx] at hu
        split at hu
        · next hcond =>
          refine ⟨hcond.1, ?_⟩
          obtain ⟨old, ho⟩ := Option.isSome_iff_exists.mp hcond.2
          refine ⟨old, ho, ?_⟩
          have hg : s.get (c.sub, c.prop) = old := by rw [IState.get, ho]; rfl
          rw [hg] at hu
          cases hq : checkEqual c.prop v old with
          | error e2 => rw [hq] at hu; simp at hu; subst hu; exact .inl rfl
          | ok b =>
            rw [hq] at hu
            simp only at hu
            split at hu
            · next hb =>
              simp at hu hb
              refine .inr ⟨hb.1, hu, ?_⟩
              rw [hb.2]
            · simp at hu
        · simp at hu
      | ok d2 =>
        have e2 : d2 = d' := by
          rw [hx] at hu
          split at hu
          · split at hu
            · simp at hu
            · split at hu
              · simp at hu
              · injection hu
          · injection hu
        subst e2
        obtain ⟨y, hy, hst, hvals⟩ := stamped_ok ha' c
        have e1 : executeFrom strict d (c :: cs) = (y :: (executeFrom strict d2 cs).1, (executeFrom strict d2 cs).2) := by
          rw [executeFrom, hx]
          simp only [hy]
        rw [e1]
        obtain ⟨i1, i2, i3⟩ := ih hcs' d2 _ ha'
        refine ⟨?_, ?_, ?_⟩
        · intro h
          simp only [List.length_cons]
          rw [i1 h]
        · intro k y' hk
          cases k with
          | zero =>
            simp only [List.getElem?_cons_zero, Option.some.injEq] at hk
            subst hk
            refine ⟨c, _, rfl, ?_, hst, hvals⟩
            simp only [List.take_succ_cons, List.take_zero, interpretAll]
            rw [hint]
            rfl
          | succ k =>
            simp only [List.getElem?_cons_succ] at hk
            obtain ⟨c', s', h1, h2, h3⟩ := i2 k y' hk
            refine ⟨c', s', by simpa using h1, ?_, h3⟩
            rw [List.take_succ_cons, interpretAll, hint]
            exact h2
        · intro e he
          obtain ⟨c', s', h1, h2, h3⟩ := i3 e he
          refine ⟨c', s', by simpa using h1, ?_, h3⟩
          simp only [List.length_cons, List.take_succ_cons, interpretAll]
          rw [hint]
          exact h2

/-- strict and lenient runs -/
theorem run_strict (cs : List Cmd) (hcs : ∀ c ∈ cs, Addressed c) (d : TD) (s : IState) (ha : Agree d s) :
    executeFrom true d cs = executeFrom false d cs ∨
    ((executeFrom true d cs).2 = some .assertionError ∧
      (executeFrom true d cs).1.length < (executeFrom false d cs).1.length ∧
      (executeFrom true d cs).1 <+: (executeFrom false d cs).1) := by
  induction cs generalizing d s with
  | nil => exact .inl rfl
  | cons c cs ih =>
    have hc := hcs c (by simp)
    have hcs' : ∀ c ∈ cs, Addressed c := fun c h => hcs c (by simp [h])
    have hstep := step_eq ha hc
    cases hn : newValue c (s.get (c.sub, c.prop)) with
    | error x =>
      rw [hn] at hstep
      left
      rw [executeFrom, executeFrom, hstep, hstep]
    | ok v =>
      rw [hn] at hstep
      obtain ⟨d', ha', hu⟩ := hstep
      obtain ⟨y, hy, _⟩ := stamped_ok ha' c
      have both : executeUpdate true c d = .ok d' → executeUpdate false c d = .ok d' →
          executeFrom true d (c :: cs) = executeFrom false d (c :: cs) ∨
          ((executeFrom true d (c :: cs)).2 = some .assertionError ∧
            (executeFrom true d (c :: cs)).1.length < (executeFrom false d (c :: cs)).1.length ∧
            (executeFrom true d (c :: cs)).1 <+: (executeFrom false d (c :: cs)).1) := by
        intro h1 h2
        have e : ∀ st, executeUpdate st c d = .ok d' →
            executeFrom st d (c :: cs) = (y :: (executeFrom st d' cs).1, (executeFrom st d' cs).2) := by
          intro st h
          rw [executeFrom, h]
          simp only [hy]
        rw [e true h1, e false h2]
        rcases ih hcs' d' _ ha' with h | ⟨h3, h4, h5⟩
        · left; rw [h]
        · exact .inr ⟨h3, by simpa using h4, List.cons_prefix_cons.mpr ⟨rfl, h5⟩⟩
      have h1 := hu true
      have h2 := hu false
      by_cases hcond : c.update = .assertEqualOrSet ∧ (s.lookup (c.sub, c.prop)).isSome = true
      · rw [if_pos hcond] at h1 h2
        cases hq : checkEqual c.prop v (s.get (c.sub, c.prop)) with
        | error x =>
          rw [hq] at h1 h2
          left
          rw [executeFrom, executeFrom, h1, h2]
        | ok b =>
          rw [hq] at h1 h2
          cases b with
          | true => exact both (by simpa using h1) (by simpa using h2)
          | false =>
            right
            have e1 : executeFrom true d (c :: cs) = ([], some .assertionError) := by
              rw [executeFrom, h1]
              rfl
            have e2 : executeFrom false d (c :: cs) = (y :: (executeFrom false d' cs).1, (executeFrom false d' cs).2) := by
              rw [executeFrom, h2]
              simp [hy]
            rw [e1, e2]
            refine ⟨rfl, by simp, List.nil_prefix⟩
      · rw [if_neg hcond] at h1 h2
        exact both h1 h2

/-- a strict run never goes past a mismatch -/
theorem run_no_mismatch (cs : List Cmd) (hcs : ∀ c ∈ cs, Addressed c) (d : TD) (s : IState) (ha : Agree d s)
    (k : Nat) (hk : k < (executeFrom true d cs).1.length) (c : Cmd) (s' : IState) (old : Val) (hc : cs[k]? = some c)
    (hu : c.update = .assertEqualOrSet) (hi : interpretAll s (cs.take k) = .ok s')
    (ho : s'.lookup (c.sub, c.prop) = some old) : checkEqual c.prop c.value old ≠ .ok false := by
  induction cs generalizing d s k with
  | nil => simp at hc
  | cons c0 cs ih =>
    have hc0 := hcs c0 (by simp)
    have hcs' : ∀ c ∈ cs, Addressed c := fun c h => hcs c (by simp [h])
    have hstep := step_eq ha hc0
    cases hn : newValue c0 (s.get (c0.sub, c0.prop)) with
    | error x =>
      rw [hn] at hstep
      rw [executeFrom, hstep true] at hk
      simp at hk
    | ok v =>
      rw [hn] at hstep
      obtain ⟨d', ha', hx⟩ := hstep
      have hx := hx true
      have hint : interpret s c0 = .ok (v, s.set (c0.sub, c0.prop) v) := by rw [interpret_eq, hn]
      cases hy : executeUpdate true c0 d with
      | error e =>
        rw [executeFrom, hy] at hk
        simp at hk
      | ok d2 =>
        have e2 : d2 = d' := by
          rw [hy] at hx
          split at hx
          · split at hx
            · simp at hx
            · split at hx
              · simp at hx
              · injection hx
          · injection hx
        subst e2
        obtain ⟨y, hst, _⟩ := stamped_ok ha' c0
        cases k with
        | zero =>
          simp only [List.getElem?_cons_zero, Option.some.injEq] at hc
          subst hc
          simp only [List.take_zero, interpretAll, Except.ok.injEq] at hi
          subst hi
          intro hq
          have hg : s.get (c0.sub, c0.prop) = old := by rw [IState.get, ho]; rfl
          have hv : v = c0.value := by
            rw [newValue, hu] at hn
            simp at hn
            exact hn.symm
          rw [hy, if_pos ⟨hu, by rw [ho]; rfl⟩, hg, hv, hq] at hx
          simp at hx
        | succ k =>
          refine ih hcs' d2 _ ha' k ?_ (by simpa using hc) ?_
          · rw [executeFrom, hy] at hk
            simpa [hst] using hk
          · rw [List.take_succ_cons, interpretAll, hint] at hi
            exact hi

end Verif.Proofs
