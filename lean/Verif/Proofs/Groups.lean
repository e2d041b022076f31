import Verif.Proofs.Counter
import Verif.Spec.Hand

namespace Verif.Proofs
open Verif.Py Verif.Model Verif.Spec

/-! ### kinds -/

theorem mem_allKinds {k : Kind} : k ∈ allKinds ↔ ValidKind k := by
  obtain ⟨c, n⟩ := k
  constructor
  · intro h
    simp only [allKinds, List.mem_cons, Prod.mk.injEq, List.not_mem_nil, or_false] at h
    unfold ValidKind
    cases c <;> simp at h ⊢ <;> omega
  · intro h
    unfold ValidKind at h
    simp only [allKinds, List.mem_cons, Prod.mk.injEq, List.not_mem_nil, or_false]
    cases c <;> simp at h ⊢ <;> omega

theorem nodup_allKinds : allKinds.Nodup := by decide

theorem sumK_congr {f g : Kind → Int} (h : ∀ k, ValidKind k → f k = g k) : sumK f = sumK g := by
  unfold sumK
  congr 1
  exact List.map_congr_left (fun k hk => h k (mem_allKinds.1 hk))

theorem list_sum_mono {κ : Type} {f g : κ → Int} (l : List κ) (h : ∀ k ∈ l, f k ≤ g k) :
    (l.map f).sum ≤ (l.map g).sum := by
  induction l with
  | nil => simp
  | cons a l ih =>
    simp only [List.map_cons, List.sum_cons]
    have := h a (by simp)
    have := ih (fun k hk => h k (by simp [hk]))
    omega

theorem list_sum_add {κ : Type} {f g : κ → Int} (l : List κ) :
    (l.map (fun k => f k + g k)).sum = (l.map f).sum + (l.map g).sum := by
  induction l with
  | nil => simp
  | cons a l ih => simp only [List.map_cons, List.sum_cons, ih]; omega

theorem sumK_mono {f g : Kind → Int} (h : ∀ k, ValidKind k → f k ≤ g k) : sumK f ≤ sumK g :=
  list_sum_mono _ (fun k hk => h k (mem_allKinds.1 hk))

theorem sumK_add (f g : Kind → Int) : sumK (fun k => f k + g k) = sumK f + sumK g :=
  list_sum_add _

theorem list_sum_le_of_mem {κ : Type} {f : κ → Int} (l : List κ) (h : ∀ k ∈ l, 0 ≤ f k) {a : κ}
    (ha : a ∈ l) : f a ≤ (l.map f).sum := by
  induction l with
  | nil => simp at ha
  | cons b l ih =>
    simp only [List.map_cons, List.sum_cons]
    have h0 : 0 ≤ (l.map f).sum := by
      have := list_sum_mono (f := fun _ => 0) (g := f) l (fun k hk => h k (by simp [hk]))
      have h1 : (l.map (fun _ : κ => (0:Int))).sum = 0 := by
        clear h ha ih this
        induction l <;> simp_all
      omega
    have hb := h b (by simp)
    rcases List.mem_cons.1 ha with rfl | ha
    · omega
    · have := ih (fun k hk => h k (by simp [hk])) ha
      omega

theorem sumK_zero : sumK (fun _ => 0) = 0 := by decide

theorem sumK_nonneg {f : Kind → Int} (h : ∀ k, ValidKind k → 0 ≤ f k) : 0 ≤ sumK f := by
  have := sumK_mono (f := fun _ => 0) h
  rw [sumK_zero] at this; exact this

theorem le_sumK {f : Kind → Int} (h : ∀ k, ValidKind k → 0 ≤ f k) {k : Kind} (hk : ValidKind k) :
    f k ≤ sumK f :=
  list_sum_le_of_mem _ (fun k hk => h k (mem_allKinds.1 hk)) (mem_allKinds.2 hk)

/-! ### order of kinds -/

theorem Suit.ord_inj {a b : Suit} (h : a.ord = b.ord) : a = b := by
  cases a <;> cases b <;> simp_all [Suit.ord]

theorem Kind.lt_irrefl (a : Kind) : ¬ Kind.lt a a := by simp [Kind.lt]

theorem Kind.lt_trans {a b c : Kind} (h1 : Kind.lt a b) (h2 : Kind.lt b c) : Kind.lt a c := by
  unfold Kind.lt at *
  rcases h1 with h1 | ⟨h1, h1'⟩ <;> rcases h2 with h2 | ⟨h2, h2'⟩
  · left; omega
  · left; rw [← h2]; exact h1
  · left; rw [h1]; exact h2
  · right; exact ⟨h1.trans h2, by omega⟩

theorem Kind.lt_tri (a b : Kind) : Kind.lt a b ∨ a = b ∨ Kind.lt b a := by
  unfold Kind.lt
  obtain ⟨a1, a2⟩ := a
  obtain ⟨b1, b2⟩ := b
  rcases Int.lt_trichotomy a1.ord b1.ord with h | h | h
  · exact Or.inl (Or.inl h)
  · have := Suit.ord_inj h
    subst this
    rcases Int.lt_trichotomy a2 b2 with h | h | h
    · exact Or.inl (Or.inr ⟨rfl, h⟩)
    · exact Or.inr (Or.inl (by simp [h]))
    · exact Or.inr (Or.inr (Or.inr ⟨rfl, h⟩))
  · exact Or.inr (Or.inr (Or.inl h))

theorem Kind.lt_asymm {a b : Kind} (h : Kind.lt a b) : ¬ Kind.lt b a :=
  fun h' => Kind.lt_irrefl a (Kind.lt_trans h h')

theorem Kind.lt_ne {a b : Kind} (h : Kind.lt a b) : a ≠ b := by
  rintro rfl; exact Kind.lt_irrefl _ h

/-! ### groups -/

/-- the smallest tile of a group -/
def _root_.Verif.Spec.Group.first : Group → Kind
  | .pair k => k
  | .run k => k
  | .trip k => k

/-- number of tiles -/
def _root_.Verif.Spec.Group.size : Group → Int
  | .pair _ => 2
  | .run _ => 3
  | .trip _ => 3

theorem Group.count_nonneg (g : Group) (j : Kind) : 0 ≤ g.count j := by
  cases g <;> simp only [Group.count] <;> split <;> omega

theorem Group.count_first_pos (g : Group) : 0 < g.count g.first := by
  cases g <;> simp [Group.count, Group.first] <;> omega

theorem _root_.Verif.Spec.Group.Proper.first_valid {g : Group} (h : g.Proper) : ValidKind g.first := by
  cases g with
  | pair k => exact h
  | trip k => exact h
  | run k =>
    simp only [Group.Proper] at h
    simp only [Group.first, ValidKind]
    left; exact ⟨h.1, h.2.1, by omega⟩

theorem _root_.Verif.Spec.Group.Proper.valid_of_count {g : Group} (h : g.Proper) {j : Kind} (hj : g.count j ≠ 0) :
    ValidKind j := by
  cases g with
  | pair k =>
    simp only [Group.count] at hj
    split at hj
    · subst_vars; exact h
    · simp at hj
  | trip k =>
    simp only [Group.count] at hj
    split at hj
    · subst_vars; exact h
    · simp at hj
  | run k =>
    simp only [Group.count] at hj
    split at hj
    · rename_i hc
      simp only [Group.Proper] at h
      left
      rw [hc.1]
      exact ⟨h.1, by omega, by omega⟩
    · simp at hj

/-- every tile of a group is at or after its first tile -/
theorem Group.first_le_of_count {g : Group} {j : Kind} (hj : g.count j ≠ 0) :
    ¬ Kind.lt j g.first := by
  cases g <;> simp only [Group.count, Group.first] at * <;> split at hj <;> try (simp at hj; done)
  · subst_vars; exact Kind.lt_irrefl _
  · rename_i hc
    unfold Kind.lt
    rw [hc.1]
    omega
  · subst_vars; exact Kind.lt_irrefl _

theorem Group.sumK_count {g : Group} (h : g.Proper) : sumK (g.count) = g.size := by
  have h2 : ∀ k ∈ allKinds, sumK ((Group.pair k).count) = 2 ∧ sumK ((Group.trip k).count) = 3 ∧
     ((Group.run k).Proper → sumK ((Group.run k).count) = 3) := by decide +kernel
  have := h2 g.first (mem_allKinds.2 h.first_valid)
  cases g with
  | pair k => exact this.1
  | trip k => exact this.2.1
  | run k => exact this.2.2 h

@[simp] theorem need_nil (j : Kind) : need [] j = 0 := rfl
@[simp] theorem need_cons (g : Group) (D : List Group) (j : Kind) :
    need (g :: D) j = g.count j + need D j := by simp [need]

theorem need_perm {D D' : List Group} (h : D.Perm D') (j : Kind) : need D j = need D' j :=
  Counter.perm_sum (h.map _)

theorem need_nonneg (D : List Group) (j : Kind) : 0 ≤ need D j := by
  induction D with
  | nil => simp
  | cons g D ih => have := Group.count_nonneg g j; simp; omega

theorem count_le_need {D : List Group} {g : Group} (h : g ∈ D) (j : Kind) : g.count j ≤ need D j := by
  rw [need_perm (List.perm_cons_erase h)]
  have := need_nonneg (D.erase g) j
  simp; omega

theorem exists_of_need_ne {D : List Group} {j : Kind} (h : need D j ≠ 0) :
    ∃ g ∈ D, g.count j ≠ 0 := by
  induction D with
  | nil => simp at h
  | cons g D ih =>
    by_cases hg : g.count j = 0
    · have : need D j ≠ 0 := by simpa [hg] using h
      obtain ⟨g', h1, h2⟩ := ih this
      exact ⟨g', by simp [h1], h2⟩
    · exact ⟨g, by simp, hg⟩

theorem sumK_need {D : List Group} (h : ∀ g ∈ D, g.Proper) :
    sumK (need D) = (D.map Group.size).sum := by
  induction D with
  | nil => decide
  | cons g D ih =>
    have : need (g :: D) = fun k => g.count k + need D k := by funext k; simp
    rw [this, sumK_add, Group.sumK_count (h g (by simp)), ih (fun g hg => h g (by simp [hg]))]
    simp

/-! ### Legal -/

theorem _root_.Verif.Spec.Legal.proper {w : Pattern} {D : List Group} (h : Legal w D) : ∀ g ∈ D, g.Proper := by
  cases w with
  | normal p m => exact h.1
  | unique p used =>
    intro g hg
    obtain ⟨k, rfl, hk, _⟩ := h.1 g hg
    exact hk

theorem _root_.Verif.Spec.Legal.perm {w : Pattern} {D D' : List Group} (hp : D.Perm D') (h : Legal w D) :
    Legal w D' := by
  cases w with
  | normal p m =>
    obtain ⟨h1, h2, h3⟩ := h
    refine ⟨fun g hg => h1 g (hp.mem_iff.2 hg), ?_, ?_⟩
    · rw [← h2]; exact (hp.filter _).length_eq.symm
    · rw [← h3]; exact (hp.filter _).length_eq.symm
  | unique p used =>
    obtain ⟨h1, h2, h3⟩ := h
    exact ⟨fun g hg => h1 g (hp.mem_iff.2 hg), hp.nodup_iff.1 h2, by rw [← h3]; exact hp.length_eq.symm⟩

/-- the pattern left after taking one group -/
def step : Pattern → Group → Option Pattern
  | .normal p m, .pair _ => if p > 0 then some (.normal (p - 1) m) else none
  | .normal p m, _ => if m > 0 then some (.normal p (m - 1)) else none
  | .unique p used, .pair k => if k ∉ used ∧ p > 0 then some (.unique (p - 1) (k :: used)) else none
  | .unique _ _, _ => none

theorem legal_nil {w : Pattern} : Legal w [] ↔ w.hasWin = true := by
  cases w with
  | normal p m =>
    simp [Legal, Pattern.hasWin]; omega
  | unique p used => simp [Legal, Pattern.hasWin]; omega

theorem legal_cons {w : Pattern} {g : Group} {D : List Group} :
    Legal w (g :: D) ↔ g.Proper ∧ ∃ w', step w g = some w' ∧ Legal w' D := by
  cases w with
  | normal p m =>
    have hnp : ∀ g : Group, g.isPair = false → step (.normal p m) g =
        if m > 0 then some (.normal p (m - 1)) else none := by
      intro g hg; cases g <;> simp_all [step, Group.isPair]
    have hp : ∀ g : Group, g.isPair = true → step (.normal p m) g =
        if p > 0 then some (.normal (p - 1) m) else none := by
      intro g hg; cases g <;> simp_all [step, Group.isPair]
    cases hb : g.isPair with
    | true =>
      rw [hp g hb]
      simp only [Legal, List.mem_cons, List.filter_cons, hb, if_true, List.length_cons,
        Bool.not_true, Bool.false_eq_true, if_false]
      constructor
      · rintro ⟨h1, h2, h3⟩
        refine ⟨h1 g (Or.inl rfl), .normal (p - 1) m, by simp; omega, fun g hg => h1 g (Or.inr hg), ?_, h3⟩
        omega
      · rintro ⟨h1, w', h2, h3⟩
        split at h2
        · simp at h2; subst h2
          refine ⟨?_, ?_, h3.2.2⟩
          · rintro g' (rfl | hg')
            · exact h1
            · exact h3.1 _ hg'
          · have := h3.2.1; omega
        · simp at h2
    | false =>
      rw [hnp g hb]
      simp only [Legal, List.mem_cons, List.filter_cons, hb, if_true, List.length_cons,
        Bool.not_false, Bool.false_eq_true, if_false]
      constructor
      · rintro ⟨h1, h2, h3⟩
        refine ⟨h1 g (Or.inl rfl), .normal p (m - 1), by simp; omega, fun g hg => h1 g (Or.inr hg), h2, ?_⟩
        omega
      · rintro ⟨h1, w', h2, h3⟩
        split at h2
        · simp at h2; subst h2
          refine ⟨?_, h3.2.1, ?_⟩
          · rintro g' (rfl | hg')
            · exact h1
            · exact h3.1 _ hg'
          · have := h3.2.2; omega
        · simp at h2
  | unique p used =>
    cases g with
    | run k => simp [Legal, step]
    | trip k => simp [Legal, step]
    | pair k =>
      simp only [Legal, step, List.mem_cons, List.nodup_cons, List.length_cons]
      constructor
      · rintro ⟨h1, ⟨h2, h3⟩, h4⟩
        obtain ⟨k', hk', hv, hu⟩ := h1 (.pair k) (Or.inl rfl)
        simp at hk'; subst hk'
        refine ⟨hv, .unique (p - 1) (k :: used), by rw [if_pos ⟨hu, by omega⟩], ?_, h3, by omega⟩
        intro g hg
        obtain ⟨k', rfl, hv', hu'⟩ := h1 g (Or.inr hg)
        refine ⟨k', rfl, hv', ?_⟩
        simp only [List.mem_cons, not_or]
        refine ⟨?_, hu'⟩
        rintro rfl
        exact h2 hg
      · rintro ⟨h1, w', h2, h3⟩
        split at h2
        · rename_i hc
          simp at h2; subst h2
          obtain ⟨h4, h5, h6⟩ := h3
          refine ⟨?_, ⟨?_, h5⟩, ?_⟩
          · rintro g (rfl | hg)
            · exact ⟨k, rfl, h1, hc.1⟩
            · obtain ⟨k', rfl, hv', hu'⟩ := h4 g hg
              simp at hu'
              exact ⟨k', rfl, hv', hu'.2⟩
          · intro hk
            obtain ⟨k', hk', hv', hu'⟩ := h4 _ hk
            simp at hk'; subst hk'
            simp at hu'
          · omega
        · simp at h2

theorem _root_.Verif.Spec.Legal.needCount {w : Pattern} {D : List Group} (h : Legal w D) :
    w.needCount = sumK (need D) := by
  rw [sumK_need h.proper]
  induction D generalizing w with
  | nil =>
    have := legal_nil.1 h
    cases w <;> simp_all [Pattern.hasWin, Pattern.needCount]
  | cons g D ih =>
    obtain ⟨hg, w', hs, hl⟩ := legal_cons.1 h
    have := ih hl
    simp only [List.map_cons, List.sum_cons, ← this]
    cases w <;> cases g <;> simp only [step] at hs <;> (try split at hs) <;>
      simp at hs <;> subst hs <;> simp only [Pattern.needCount, Group.size] <;> omega

theorem _root_.Verif.Spec.Legal.needUnits {w : Pattern} {D : List Group} (h : Legal w D) :
    w.needUnits = D.length := by
  cases w with
  | normal p m =>
    obtain ⟨_, h2, h3⟩ := h
    have : ∀ D : List Group, D.length = (D.filter (fun g => g.isPair)).length +
        (D.filter (fun g => !g.isPair)).length := by
      intro D
      induction D with
      | nil => rfl
      | cons g D ih => cases hg : g.isPair <;> simp [List.filter_cons, hg] <;> omega
    have := this D
    simp only [Pattern.needUnits]; omega
  | unique p used => exact h.2.2.symm

theorem step_needUnits {w w' : Pattern} {g : Group} (h : step w g = some w') :
    w.needUnits = w'.needUnits + 1 := by
  cases w <;> cases g <;> simp only [step] at h <;> (try split at h) <;> simp at h <;> subst h <;>
      simp only [Pattern.needUnits] <;> omega

/-! ### units as tile sets -/

/-- the plain tile of a kind -/
def plain (k : Kind) : Tile := ⟨k.1, k.2, false⟩

@[simp] theorem view_plain (k : Kind) : (plain k).view = k := by simp [plain, Tile.view]
@[simp] theorem kview_plain (k : Kind) : Keyed.view (plain k) = k := view_plain k
theorem view_def (t : Tile) : Keyed.view t = t.view := rfl

/-- the tile set the code builds for a group -/
def unitOf : Group → TileSet
  | .pair k => [(plain k, 2)]
  | .run k => [(plain k, 1), (plain (k.1, k.2 + 1), 1), (plain (k.1, k.2 + 2), 1)]
  | .trip k => [(plain k, 3)]

theorem repeat_two (t : Tile) : t.pair = [(plain t.view, 2)] := by
  unfold Tile.pair Tile.repeat
  by_cases h : t.aka <;> simp [Counter.ofIter, Counter.set, Counter.get, List.replicate, plain, Tile.view, h]

theorem repeat_three (t : Tile) : t.triplet = [(plain t.view, 3)] := by
  unfold Tile.triplet Tile.repeat
  by_cases h : t.aka <;> simp [Counter.ofIter, Counter.set, Counter.get, List.replicate, plain, Tile.view, h]

theorem ofIter_run (c : Suit) (n : Int) :
    Counter.ofIter [plain (c, n), plain (c, n+1), plain (c, n+2)] = unitOf (.run (c, n)) := by
  have h1 : n ≠ n + 1 := by omega
  have h2 : n ≠ n + 2 := by omega
  have h3 : n + 1 ≠ n + 2 := by omega
  simp [Counter.ofIter, Counter.set, Counter.get, unitOf, h1, h2, h3]

theorem flush_eq {t : Tile} (h : RealTile t) :
    t.flush = if t.color ≠ Suit.z ∧ t.view.2 ≤ 7 then some (unitOf (.run t.view)) else none := by
  obtain ⟨c, n, a⟩ := t
  cases a with
  | true =>
    have := h.2 rfl
    simp only at this
    obtain ⟨rfl, hc⟩ := this
    have := ofIter_run c 5
    simp [plain] at this
    simp [Tile.flush, Tile.isSuit, Tile.view, hc, List.range, List.range.loop, this]
  | false =>
    have := ofIter_run c n
    simp [plain] at this
    by_cases hc : c ≠ Suit.z ∧ n ≤ 7
    · simp [Tile.flush, Tile.isSuit, Tile.view, hc, List.range, List.range.loop, this]
    · have hc' : c ≠ Suit.z → ¬ n ≤ 7 := fun h1 h2 => hc ⟨h1, h2⟩
      simp [Tile.flush, Tile.isSuit, Tile.view]
      split <;> simp_all

theorem WF_unitOf (g : Group) : Counter.WF (unitOf g) := by
  cases g <;> simp [unitOf, Counter.WF, Prod.ext_iff]
  omega

theorem get_unitOf (g : Group) (j : Kind) : Counter.get (unitOf g) j = g.count j := by
  cases g with
  | pair k => simp [unitOf, Counter.get, Group.count, eq_comm]
  | trip k => simp [unitOf, Counter.get, Group.count, eq_comm]
  | run k =>
    obtain ⟨c, n⟩ := k
    obtain ⟨c', n'⟩ := j
    simp only [unitOf, Counter.get, Group.count, kview_plain, Prod.mk.injEq]
    by_cases hc : c = c'
    · subst hc; simp only [true_and]; split <;> split <;> (try split) <;> (try split) <;> omega
    · have : ¬ c' = c := fun h => hc h.symm
      simp [hc, this]

theorem keys_unitOf (g : Group) (j : Kind) : j ∈ Counter.keys (unitOf g) ↔ g.count j ≠ 0 := by
  cases g with
  | pair k => simp [unitOf, Group.count]
  | trip k => simp [unitOf, Group.count]
  | run k =>
    obtain ⟨c, n⟩ := k
    obtain ⟨c', n'⟩ := j
    simp only [unitOf, Group.count, Counter.keys_cons, kview_plain, List.mem_cons, Prod.mk.injEq,
      Counter.keys_nil, List.not_mem_nil, or_false]
    split <;> rename_i h
    · obtain ⟨rfl, h⟩ := h; simp; omega
    · simp; 
      refine ⟨?_, ?_, ?_⟩ <;> intro hc <;> subst hc <;> simp at h <;> omega

theorem contains_iff {c d : TileSet} (hd : Counter.WF d) :
    TileSet.contains c d = true ↔ ∀ k ∈ Counter.keys d, Counter.get d k ≤ Counter.get c k := by
  unfold TileSet.contains
  rw [List.all_eq_true]
  constructor
  · intro h k hk
    obtain ⟨e, he, rfl, hv⟩ := Counter.exists_of_mem_keys hd hk
    have := h e he
    simp at this; rw [← hv]; exact this
  · intro h e he
    have := h (Keyed.view e.1) (Counter.mem_keys.2 ⟨e, he, rfl⟩)
    rw [Counter.get_of_mem hd he] at this
    simpa using this

theorem contains_unit {c : TileSet} {g : Group} (hc : ∀ k, 0 ≤ Counter.get c k) :
    TileSet.contains c (unitOf g) = true ↔ ∀ k, g.count k ≤ Counter.get c k := by
  rw [contains_iff (WF_unitOf g)]
  constructor
  · intro h k
    by_cases hk : g.count k = 0
    · rw [hk]; exact hc k
    · have := h k ((keys_unitOf g k).2 hk)
      rwa [get_unitOf] at this
  · intro h k _; rw [get_unitOf]; exact h k

/-- `next_states` yields exactly the groups that start at the tile and fit the pattern. -/
theorem mem_nextStates {w : Pattern} {t : Tile} (ht : RealTile t) {c : TileSet} {w' : Pattern} :
    (c, w') ∈ w.nextStates t ↔
      ∃ g : Group, g.Proper ∧ g.first = t.view ∧ step w g = some w' ∧ c = unitOf g := by
  have hv : ValidKind t.view := ht.1
  have hlen : ∀ k, TileSet.len (unitOf (.run k)) ≠ 0 := by
    intro k; simp [TileSet.len, unitOf]
  have hrun : (Group.run t.view).Proper ↔ t.color ≠ Suit.z ∧ t.view.2 ≤ 7 := by
    simp only [Group.Proper]
    have : t.view.1 = t.color := rfl
    rw [this]
    constructor
    · rintro ⟨h1, h2, h3⟩; exact ⟨h1, h3⟩
    · rintro ⟨h1, h3⟩
      refine ⟨h1, ?_, h3⟩
      rcases hv with h | h <;> exact h.2.1
  cases w with
  | normal p m =>
    simp only [Pattern.nextStates, List.mem_append]
    rw [flush_eq ht, repeat_two, repeat_three]
    constructor
    · rintro (h | h)
      · split at h
        · simp at h
          obtain ⟨rfl, rfl⟩ := h
          exact ⟨.pair t.view, hv, rfl, by simp [step]; omega, rfl⟩
        · simp at h
      · split at h
        · rename_i hm
          rcases List.mem_append.1 h with h | h
          · by_cases hc : t.color ≠ Suit.z ∧ t.view.2 ≤ 7
            · rw [if_pos hc] at h
              simp only [hlen, ne_eq, not_false_eq_true, if_true, List.mem_singleton, Prod.mk.injEq] at h
              obtain ⟨rfl, rfl⟩ := h
              exact ⟨.run t.view, hrun.2 hc, rfl, by simp [step]; omega, rfl⟩
            · rw [if_neg hc] at h; simp at h
          · simp at h
            obtain ⟨rfl, rfl⟩ := h
            exact ⟨.trip t.view, hv, rfl, by simp [step]; omega, rfl⟩
        · simp at h
    · rintro ⟨g, hg, hf, hs, rfl⟩
      cases g with
      | pair k =>
        simp only [Group.first] at hf; subst hf
        simp only [step] at hs
        split at hs
        · rename_i hp
          simp at hs; subst hs
          left; simp [hp, unitOf]
        · simp at hs
      | trip k =>
        simp only [Group.first] at hf; subst hf
        simp only [step] at hs
        split at hs
        · rename_i hp
          simp at hs; subst hs
          right; simp [hp, unitOf]
        · simp at hs
      | run k =>
        simp only [Group.first] at hf; subst hf
        simp only [step] at hs
        split at hs
        · rename_i hp
          simp at hs; subst hs
          right
          rw [if_pos hp, if_pos (hrun.1 hg)]
          simp [hlen]
        · simp at hs
  | unique p used =>
    simp only [Pattern.nextStates]
    rw [repeat_two]
    constructor
    · intro h
      split at h
      · rename_i hc
        simp at h
        obtain ⟨rfl, rfl⟩ := h
        exact ⟨.pair t.view, hv, rfl, by simp only [step]; rw [if_pos hc], rfl⟩
      · simp at h
    · rintro ⟨g, hg, hf, hs, rfl⟩
      cases g with
      | pair k =>
        simp only [Group.first] at hf; subst hf
        simp only [step] at hs
        split at hs
        · rename_i hp
          simp at hs; subst hs
          rw [if_pos hp]; simp [unitOf]
        · simp at hs
      | trip k => simp [step] at hs
      | run k => simp [step] at hs

end Verif.Proofs
