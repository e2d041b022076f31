import Verif.Spec.Stage

namespace Verif.Proofs
open Verif.Model Verif.Spec
variable {α κ : Type} [DecidableEq κ]

theorem inOrder_nil (stages : List κ) : InOrder stages [] := by
  refine ⟨List.replicate stages.length 0, by simp, ?_⟩
  induction stages with
  | nil => rfl
  | cons s l ih => simp [List.replicate_succ, ← ih]

theorem inOrder_empty {keys : List κ} : InOrder [] keys ↔ keys = [] := by
  constructor
  · rintro ⟨c, hl, rfl⟩; cases c <;> simp at hl ⊢
  · rintro rfl; exact inOrder_nil _

theorem inOrder_cons {s : κ} {l : List κ} {k : κ} {ks : List κ} :
    InOrder (s :: l) (k :: ks) ↔ (k = s ∧ InOrder (s :: l) ks) ∨ InOrder l (k :: ks) := by
  constructor
  · rintro ⟨c, hl, he⟩
    match c, hl with
    | 0 :: c, hl =>
      right
      refine ⟨c, by simpa using hl, ?_⟩
      simpa using he
    | (n + 1) :: c, hl =>
      left
      simp only [List.zipWith_cons_cons, List.flatten_cons, List.replicate_succ, List.cons_append, List.cons.injEq] at he
      refine ⟨he.1, n :: c, by simpa using hl, ?_⟩
      simpa using he.2
  · rintro (⟨rfl, c, hl, he⟩ | ⟨c, hl, he⟩)
    · match c, hl with
      | n :: c, hl =>
        refine ⟨(n + 1) :: c, by simpa using hl, ?_⟩
        simp only [List.zipWith_cons_cons, List.flatten_cons, List.replicate_succ, List.cons_append] at he ⊢
        rw [← he]
    · exact ⟨0 :: c, by simpa using hl, by simpa using he⟩

theorem inOrder_tail {s : κ} {l ks : List κ} (h : InOrder l ks) : InOrder (s :: l) ks := by
  obtain ⟨c, hl, rfl⟩ := h
  exact ⟨0 :: c, by simpa using hl, by simp⟩

theorem acceptLoop_spec (k : κ) (l : List κ) (ks : List κ) :
    InOrder l (k :: ks) ↔ (acceptLoop (some k) l).1 = true ∧ InOrder (acceptLoop (some k) l).2 ks := by
  induction l with
  | nil => simp [acceptLoop, inOrder_empty]
  | cons s l ih =>
    rw [inOrder_cons, acceptLoop]
    by_cases h : k = s
    · subst h
      simp only [if_true, true_and]
      constructor
      · rintro (h | h)
        · exact h
        · rw [ih] at h
          clear ih
          -- dropping stages only shrinks what is accepted
          have : ∀ l', InOrder (acceptLoop (some k) l').2 ks → InOrder l' ks := by
            intro l'
            induction l' with
            | nil => exact id
            | cons s' l' ih' =>
              rw [acceptLoop]
              split
              · exact id
              · exact fun h => inOrder_tail (ih' h)
          exact inOrder_tail (this l h.2)
      · exact Or.inl
    · have h' : ¬ (some k = some s) := by simpa using h
      simp only [h, h', if_false, false_and, false_or]
      exact ih

/-- keys that may follow in the group with this target -/
def Follow (t : Tgt κ) (keys : List κ) : Prop :=
  match t with
  | .unknown v => ∃ n, ∀ k, v = some k → keys = List.replicate n k
  | .stages l => InOrder l keys

theorem accept_unknown (v k : κ) : stageAccepted (some k) (.unknown (some v)) = (decide (v = k), .unknown (some v)) := by
  simp [stageAccepted]

theorem accept_cons (t : Tgt κ) (hv : t ≠ .unknown none) (k : κ) (ks : List κ) :
    Follow t (k :: ks) ↔ (stageAccepted (some k) t).1 = true ∧ Follow (stageAccepted (some k) t).2 ks := by
  cases t with
  | unknown v =>
    cases v with
    | none => exact absurd rfl hv
    | some v =>
      simp only [Follow, accept_unknown, decide_eq_true_eq, Option.some.injEq]
      constructor
      · rintro ⟨n, h⟩
        have := h v rfl
        cases n with
        | zero => simp at this
        | succ n =>
          simp only [List.replicate_succ, List.cons.injEq] at this
          exact ⟨this.1.symm, n, fun k hk => hk ▸ this.2⟩
      · rintro ⟨rfl, n, h⟩
        exact ⟨n + 1, fun k hk => by subst hk; rw [h _ rfl]; rfl⟩
  | stages l => exact acceptLoop_spec k l ks

theorem accept_ne (t : Tgt κ) (hv : t ≠ .unknown none) (k : Option κ) : (stageAccepted k t).2 ≠ .unknown none := by
  cases t with
  | unknown v => simpa [stageAccepted] using hv
  | stages l => simp [stageAccepted]

theorem follow_nil (t : Tgt κ) : Follow t [] := by
  cases t with
  | unknown v => exact ⟨0, fun k _ => rfl⟩
  | stages l => exact inOrder_nil l

/-- asking again about the same key changes nothing -/
theorem accept_idem (k : Option κ) (t : Tgt κ) : stageAccepted k (stageAccepted k t).2 = stageAccepted k t := by
  cases t with
  | unknown v => rfl
  | stages l =>
    simp only [stageAccepted, Prod.mk.injEq, Tgt.stages.injEq]
    induction l with
    | nil => simp [acceptLoop]
    | cons s l ih =>
      rw [acceptLoop]
      split
      · next h => rw [acceptLoop, if_pos h]; simp
      · exact ih

/-- the rest of the current group, and what comes after it -/
def cont (key : α → κ) : Tgt κ → List α → List α × List α
  | _, [] => ([], [])
  | t, x :: xs =>
    if (stageAccepted (some (key x)) t).1 then
      (x :: (cont key (stageAccepted (some (key x)) t).2 xs).1, (cont key (stageAccepted (some (key x)) t).2 xs).2)
    else ([], x :: xs)

theorem cont_append (key : α → κ) (t : Tgt κ) (xs : List α) : (cont key t xs).1 ++ (cont key t xs).2 = xs := by
  induction xs generalizing t with
  | nil => rfl
  | cons x xs ih =>
    rw [cont]
    split
    · simp [ih]
    · rfl

theorem cont_follow (key : α → κ) (t : Tgt κ) (ht : t ≠ .unknown none) (xs : List α) :
    Follow t ((cont key t xs).1.map key) := by
  induction xs generalizing t with
  | nil => exact follow_nil _
  | cons x xs ih =>
    rw [cont]
    split
    · next h => rw [List.map_cons, accept_cons t ht]; exact ⟨h, ih _ (accept_ne t ht _)⟩
    · exact follow_nil _

theorem cont_max (key : α → κ) (t : Tgt κ) (ht : t ≠ .unknown none) (xs : List α) (y : α)
    (hy : (cont key t xs).2.head? = some y) : ¬ Follow t (((cont key t xs).1 ++ [y]).map key) := by
  induction xs generalizing t with
  | nil => simp [cont] at hy
  | cons x xs ih =>
    rw [cont] at hy ⊢
    split
    · next h =>
      rw [if_pos h] at hy
      rw [List.cons_append, List.map_cons, accept_cons t ht]
      exact fun hf => ih _ (accept_ne t ht _) hy hf.2
    · next h =>
      rw [if_neg h] at hy
      simp only [List.head?_cons, Option.some.injEq] at hy
      subst hy
      rw [List.nil_append, List.map_cons, List.map_nil, accept_cons t ht]
      exact fun hf => h hf.1

/-- the target of a group starting with `k`, and what it says about whole groups -/
theorem newTgt_ne (stages : List κ) (k : κ) : newTgt stages (some k) ≠ .unknown none := by
  simp only [newTgt]
  split <;> simp

theorem acceptLoop_self (k : κ) (stages : List κ) (h : k ∈ stages) :
    acceptLoop (some k) stages = (true, stages.drop (stages.idxOf k)) := by
  induction stages with
  | nil => simp at h
  | cons s l ih =>
    rw [acceptLoop]
    by_cases hk : k = s
    · subst hk; simp
    · have h' : ¬ (some k = some s) := by simpa using hk
      rw [if_neg h', ih (by simpa [hk] using h), List.idxOf_cons]
      have : (s == k) = false := by simpa using fun h => hk h.symm
      simp [this]

theorem accept_newTgt (stages : List κ) (k : κ) :
    stageAccepted (some k) (newTgt stages (some k)) = (true, newTgt stages (some k)) := by
  simp only [newTgt]
  by_cases h : k ∈ stages
  · rw [if_pos h]
    have e := acceptLoop_self k stages h
    have i := accept_idem (some k) (.stages stages)
    simp only [stageAccepted, e] at i ⊢
    exact i
  · rw [if_neg h]; simp [stageAccepted]

theorem oneGroup_cons (stages : List κ) (k : κ) (ks : List κ) :
    OneGroup stages (k :: ks) ↔ Follow (newTgt stages (some k)) ks := by
  unfold OneGroup
  simp only [ne_eq, reduceCtorEq, not_false_eq_true, true_and]
  by_cases h : k ∈ stages
  · have e := acceptLoop_spec k stages ks
    rw [acceptLoop_self k stages h] at e
    simp only [true_and] at e
    rw [e]
    simp only [newTgt, if_pos h, Follow]
    constructor
    · rintro (h' | ⟨k', n, hk', he⟩)
      · exact h'
      · cases n with
        | zero => simp at he
        | succ n =>
          simp only [List.replicate_succ, List.cons.injEq] at he
          exact absurd (he.1 ▸ h) hk'
    · exact Or.inl
  · simp only [newTgt, if_neg h, Follow]
    constructor
    · rintro (h' | ⟨k', n, hk', he⟩)
      · rw [acceptLoop_spec] at h'
        have : ∀ l : List κ, (acceptLoop (some k) l).1 = true → k ∈ l := by
          intro l
          induction l with
          | nil => simp [acceptLoop]
          | cons s l ih =>
            rw [acceptLoop]
            split
            · next hs => intro _; simp at hs; simp [hs]
            · intro hl; simp [ih hl]
        exact absurd (this _ h'.1) h
      · cases n with
        | zero => simp at he
        | succ n =>
          simp only [List.replicate_succ, List.cons.injEq] at he
          obtain ⟨rfl, rfl⟩ := he
          exact ⟨n, fun k hk => by simp at hk; rw [hk]⟩
    · rintro ⟨n, hn⟩
      right
      exact ⟨k, n + 1, h, by rw [hn k rfl]; rfl⟩

/-- the groups of a list, by repeated continuation -/
def greedy (stages : List κ) (key : α → κ) : Nat → List α → List (List α)
  | 0, _ => []
  | _ + 1, [] => []
  | n + 1, x :: xs =>
    (x :: (cont key (newTgt stages (some (key x))) xs).1) ::
      greedy stages key n (cont key (newTgt stages (some (key x))) xs).2

theorem cont_length (key : α → κ) (t : Tgt κ) (xs : List α) : (cont key t xs).2.length ≤ xs.length := by
  have := congrArg List.length (cont_append key t xs)
  simp only [List.length_append] at this
  omega

theorem greedy_partition (stages : List κ) (key : α → κ) (n : Nat) (xs : List α) (hn : xs.length ≤ n) :
    StageGroups stages key xs (greedy stages key n xs) := by
  induction n generalizing xs with
  | zero =>
    have : xs = [] := List.eq_nil_of_length_eq_zero (by omega)
    subst this
    exact ⟨rfl, by simp [greedy], trivial⟩
  | succ n ih =>
    cases xs with
    | nil => exact ⟨rfl, by simp [greedy], trivial⟩
    | cons x xs =>
      have hl := cont_length key (newTgt stages (some (key x))) xs
      have ih := ih (cont key (newTgt stages (some (key x))) xs).2 (by simp at hn; omega)
      rw [greedy]
      refine ⟨?_, ?_, ?_⟩
      · rw [List.flatten_cons, ih.concat, List.cons_append, cont_append]
      · intro g hg
        rcases List.mem_cons.1 hg with rfl | hg
        · rw [List.map_cons, oneGroup_cons]
          exact cont_follow key _ (newTgt_ne stages _) xs
        · exact ih.valid g hg
      · have hm := cont_max key _ (newTgt_ne stages (key x)) xs
        generalize cont key (newTgt stages (some (key x))) xs = c at *
        cases hg : greedy stages key n c.2 with
        | nil => trivial
        | cons h gs =>
          rw [hg] at ih
          refine ⟨?_, ih.maximal⟩
          intro y hy
          rw [List.cons_append, List.map_cons, oneGroup_cons]
          apply hm y
          rw [← ih.concat, List.flatten_cons]
          cases h with
          | nil => simp at hy
          | cons z h => simpa using hy

/-- outer `next` in a state whose unread part begins a new group at `l` -/
def Ready (stages : List κ) (key : α → κ) (s : SG α κ) (l : List α) : Prop :=
  match l with
  | [] => (s.next stages key).1 = none
  | x :: xs => s.next stages key =
      (some (newTgt stages (some (key x)), s.id + 1), ⟨xs, some (key x, x), newTgt stages (some (key x)), s.id + 1⟩)

theorem ready_start (stages : List κ) (key : α → κ) (input : List α) : Ready stages key (SG.start input) input := by
  cases input with
  | nil => simp [Ready, SG.start, SG.next, skipLoop, stageAccepted]
  | cons x xs =>
    cases xs <;> simp [Ready, SG.start, SG.next, skipLoop, stageAccepted, SG.currKey]

/-- skipping from inside a group -/
theorem skip_inside (key : α → κ) (k : κ) (v : α) (t : Tgt κ) (id : Nat)
    (hacc : stageAccepted (some k) t = (true, t)) (it : List α) :
    match (cont key t it).2 with
    | [] => (skipLoop key (some (k, v)) t id it).1 = false
    | y :: ys => ∃ t', skipLoop key (some (k, v)) t id it = (true, ⟨ys, some (key y, y), t', id⟩) := by
  induction it generalizing k v t with
  | nil => simp [cont, skipLoop, hacc]
  | cons x xs ih =>
    rw [cont, skipLoop]
    simp only [Option.map_some, hacc, if_true]
    by_cases h : (stageAccepted (some (key x)) t).1 = true
    · rw [if_pos h]
      have hi := accept_idem (some (key x)) t
      have e : stageAccepted (some (key x)) t = (true, (stageAccepted (some (key x)) t).2) := Prod.ext h rfl
      have := ih (key x) x (stageAccepted (some (key x)) t).2 (by rw [hi]; exact e)
      simp only
      -- one step of the loop normalises the target first
      have hs : ∀ l, skipLoop key (some (key x, x)) t id l = skipLoop key (some (key x, x)) (stageAccepted (some (key x)) t).2 id l := by
        intro l
        cases l with
        | nil => simp [skipLoop, hi]
        | cons y ys => simp [skipLoop, hi]
      rw [hs]
      exact this
    · rw [if_neg h]
      cases xs with
      | nil => simp [skipLoop, h]
      | cons y ys => simp [skipLoop, h]

theorem ready_inside (stages : List κ) (key : α → κ) (k : κ) (v : α) (t : Tgt κ) (id : Nat) (it : List α)
    (hacc : stageAccepted (some k) t = (true, t)) :
    Ready stages key ⟨it, some (k, v), t, id⟩ (cont key t it).2 := by
  have := skip_inside key k v t (id + 1) hacc it
  unfold Ready SG.next
  cases h : (cont key t it).2 with
  | nil => rw [h] at this; simp only at this ⊢; simp [this]
  | cons y ys =>
    rw [h] at this
    obtain ⟨t', ht⟩ := this
    simp [ht, SG.currKey]

theorem ready_after (stages : List κ) (key : α → κ) (y : α) (t : Tgt κ) (id : Nat) (ys : List α)
    (hacc : (stageAccepted (some (key y)) t).1 = false) :
    Ready stages key ⟨ys, some (key y, y), t, id⟩ (y :: ys) := by
  unfold Ready SG.next
  cases ys <;> simp [skipLoop, hacc, SG.currKey]

theorem readN_done (key : α → κ) (n : Nat) (s : SG α κ) (id : Nat) :
    s.readN key n ⟨id, .done⟩ = ([], s, ⟨id, .done⟩) := by
  induction n with
  | zero => rfl
  | succ n ih => simp [SG.readN, SG.groupNext, ih]

/-- reading on in a group -/
theorem readN_suspended (stages : List κ) (key : α → κ) (n : Nat) (k : κ) (v : α) (t : Tgt κ) (id : Nat)
    (it : List α) (hacc : stageAccepted (some k) t = (true, t)) :
    ∃ s' g', (SG.mk it (some (k, v)) t id).readN key n ⟨id, .suspended⟩ = ((cont key t it).1.take n, s', g') ∧
      Ready stages key s' (cont key t it).2 := by
  induction n generalizing k v t it with
  | zero => exact ⟨_, ⟨id, .suspended⟩, by simp [SG.readN], ready_inside stages key k v t id it hacc⟩
  | succ n ih =>
    cases it with
    | nil =>
      refine ⟨⟨[], some (k, v), t, id⟩, ⟨id, .done⟩, ?_, ?_⟩
      · simp [SG.readN, SG.groupNext, readN_done, cont]
      · exact ready_inside stages key k v t id [] hacc
    | cons x xs =>
      by_cases h : (stageAccepted (some (key x)) t).1 = true
      · have e : stageAccepted (some (key x)) t = (true, (stageAccepted (some (key x)) t).2) := Prod.ext h rfl
        have hi := accept_idem (some (key x)) t
        obtain ⟨s', g', h1, h2⟩ := ih (key x) x (stageAccepted (some (key x)) t).2 xs (by rw [hi]; exact e)
        refine ⟨s', g', ?_, ?_⟩
        · rw [SG.readN]
          simp only [SG.groupNext, SG.check, SG.currKey, Option.map_some, if_true]
          rw [e]
          simp only [h1]
          rw [cont, if_pos h]
          rfl
        · rw [cont, if_pos h]; exact h2
      · have hf : (stageAccepted (some (key x)) t).1 = false := by simpa using h
        have e : stageAccepted (some (key x)) t = (false, (stageAccepted (some (key x)) t).2) := Prod.ext hf rfl
        refine ⟨⟨xs, some (key x, x), (stageAccepted (some (key x)) t).2, id⟩, ⟨id, .done⟩, ?_, ?_⟩
        · rw [SG.readN]
          simp only [SG.groupNext, SG.check, SG.currKey, Option.map_some, if_true]
          rw [e]
          simp only [readN_done]
          rw [cont, if_neg h]
          rfl
        · rw [cont, if_neg h]
          exact ready_after stages key x _ id xs (by rw [accept_idem]; exact hf)

theorem readN_fresh (stages : List κ) (key : α → κ) (n : Nat) (x : α) (id : Nat) (xs : List α) :
    ∃ s' g', (SG.mk xs (some (key x, x)) (newTgt stages (some (key x))) id).readN key n ⟨id, .fresh⟩ =
        ((x :: (cont key (newTgt stages (some (key x))) xs).1).take n, s', g') ∧
      Ready stages key s' (cont key (newTgt stages (some (key x))) xs).2 := by
  have hacc := accept_newTgt stages (key x)
  cases n with
  | zero => exact ⟨_, ⟨id, .fresh⟩, by simp [SG.readN], ready_inside stages key _ x _ id xs hacc⟩
  | succ n =>
    obtain ⟨s', g', h1, h2⟩ := readN_suspended stages key n (key x) x _ id xs hacc
    refine ⟨s', g', ?_, h2⟩
    rw [SG.readN]
    simp only [SG.groupNext, SG.check, SG.currKey, Option.map_some, if_true]
    rw [hacc]
    simp only [h1]
    rfl

/-- first key of a group as target -/
def tgtOf (stages : List κ) (key : α → κ) (g : List α) : Tgt κ := newTgt stages (g.head?.map key)

theorem consume_ready (stages : List κ) (key : α → κ) (reads : List Nat) (n : Nat) (xs : List α)
    (hn : xs.length ≤ n) (s : SG α κ) (hs : Ready stages key s xs) :
    s.consume stages key reads =
      List.zipWith (fun r g => (tgtOf stages key g, g.take r)) reads (greedy stages key n xs) := by
  induction reads generalizing n xs s with
  | nil => simp [SG.consume]
  | cons r reads ih =>
    cases xs with
    | nil =>
      have h : (s.next stages key).1 = none := hs
      rw [SG.consume]
      have e : s.next stages key = (none, (s.next stages key).2) := Prod.ext h rfl
      rw [e]
      cases n <;> simp [greedy]
    | cons x xs =>
      cases n with
      | zero => simp at hn
      | succ n =>
        have h : s.next stages key = _ := hs
        rw [SG.consume, h]
        obtain ⟨s', g', h1, h2⟩ := readN_fresh stages key r x (s.id + 1) xs
        simp only [h1]
        rw [greedy, List.zipWith_cons_cons]
        congr 1
        have hl := cont_length key (newTgt stages (some (key x))) xs
        exact ih n _ (by simp at hn; omega) s' h2

theorem tgtOf_groupKey (stages : List κ) (key : α → κ) (g : List α) (hg : g ≠ []) :
    GroupKey stages key g (tgtOf stages key g) := by
  cases g with
  | nil => exact absurd rfl hg
  | cons x rest =>
    refine ⟨x, rest, rfl, ?_⟩
    simp only [tgtOf, List.head?_cons, Option.map_some, newTgt]
    by_cases h : key x ∈ stages
    · right
      rw [if_pos h]
      obtain ⟨before, after, he, hb⟩ := List.eq_append_cons_of_mem h
      refine ⟨before, after, he, hb, ?_⟩
      subst he
      rw [List.idxOf_append]
      simp [hb]
    · left; rw [if_neg h]; exact ⟨h, rfl⟩

/-- the partition is unique -/
theorem groups_unique (stages : List κ) (key : α → κ) (gs : List (List α)) (n : Nat) (xs : List α)
    (hn : xs.length ≤ n) (h : StageGroups stages key xs gs) : gs = greedy stages key n xs := by
  induction gs generalizing xs n with
  | nil =>
    have := h.concat
    simp at this
    subst this
    cases n <;> rfl
  | cons g gs ih =>
    have hg := h.valid g (by simp)
    cases g with
    | nil => exact absurd rfl hg.1
    | cons x g =>
      have hc := h.concat
      rw [List.flatten_cons, List.cons_append] at hc
      subst hc
      cases n with
      | zero => simp at hn
      | succ n =>
        rw [greedy]
        have key1 : cont key (newTgt stages (some (key x))) (g ++ gs.flatten) = (g, gs.flatten) := by
          rw [List.map_cons, oneGroup_cons] at hg
          have hmax : ∀ y, gs.flatten.head? = some y → ¬ Follow (newTgt stages (some (key x))) ((g ++ [y]).map key) := by
            intro y hy
            have hm := h.maximal
            cases gs with
            | nil => simp at hy
            | cons h' gs =>
              have := hm.1 y (by
                have hv := (h.valid h' (by simp)).1
                cases h' with
                | nil => simp at hv
                | cons z h' => simpa using hy)
              rwa [List.cons_append, List.map_cons, oneGroup_cons] at this
          have ht := newTgt_ne stages (key x)
          generalize newTgt stages (some (key x)) = t at *
          clear ih hn h
          induction g generalizing t with
          | nil =>
            cases hf : gs.flatten with
            | nil => rfl
            | cons y ys =>
              rw [hf] at hmax
              have := hmax y rfl
              rw [List.nil_append, List.map_cons, List.map_nil, accept_cons t ht] at this
              rw [List.nil_append, cont, if_neg]
              intro hh
              exact this ⟨hh, follow_nil _⟩
          | cons z g ihg =>
            rw [List.map_cons, accept_cons t ht] at hg
            have := ihg _ hg.2 (by
              intro y hy hf
              apply hmax y hy
              rw [List.cons_append, List.map_cons, accept_cons t ht]
              exact ⟨hg.1, hf⟩) (accept_ne t ht _)
            rw [List.cons_append, cont, if_pos hg.1, this]
        rw [key1]
        simp only [List.cons.injEq, true_and]
        refine ih n _ ?_ ⟨rfl, fun g' hg' => h.valid g' (by simp [hg']), ?_⟩
        · simp at hn ⊢; omega
        · have := h.maximal
          cases gs with
          | nil => trivial
          | cons h' gs => exact this.2

theorem greedy_length (stages : List κ) (key : α → κ) (n : Nat) (xs : List α) :
    (greedy stages key n xs).length ≤ xs.length := by
  induction n generalizing xs with
  | zero => simp [greedy]
  | succ n ih =>
    cases xs with
    | nil => simp [greedy]
    | cons x xs =>
      have := ih (cont key (newTgt stages (some (key x))) xs).2
      have := cont_length key (newTgt stages (some (key x))) xs
      simp only [greedy, List.length_cons]
      omega

theorem groupLists_eq (stages : List κ) (key : α → κ) (input : List α) :
    groupLists stages key input = greedy stages key input.length input := by
  rw [groupLists, consume_ready stages key _ input.length input (Nat.le_refl _) _ (ready_start stages key input)]
  have hp := greedy_partition stages key input.length input (Nat.le_refl _)
  have hl := greedy_length stages key input.length input
  have hg : ∀ g ∈ greedy stages key input.length input, g.length ≤ input.length := by
    intro g hgm
    have h1 := (List.sublist_flatten_of_mem hgm).length_le
    rwa [hp.concat] at h1
  generalize greedy stages key input.length input = gs at *
  clear hp
  have : ∀ (m n : Nat) (gs : List (List α)), gs.length ≤ m → (∀ g ∈ gs, g.length ≤ n) →
      (List.zipWith (fun r g => (tgtOf stages key g, g.take r)) (List.replicate m n) gs).map (·.2) = gs := by
    intro m n gs
    induction gs generalizing m with
    | nil => simp
    | cons g gs ih =>
      intro h1 h2
      cases m with
      | zero => simp at h1
      | succ m =>
        rw [List.replicate_succ, List.zipWith_cons_cons, List.map_cons,
          ih m (by simp at h1; omega) (fun g' hg' => h2 g' (by simp [hg']))]
        simp only [List.cons.injEq, and_true]
        exact List.take_of_length_le (h2 g (by simp))
  exact this _ _ gs (by omega) (fun g hgm => by have := hg g hgm; omega)

end Verif.Proofs
