import Verif.Proofs.Groups
import Verif.Spec.Waiting

namespace Verif.Proofs
open Verif.Py Verif.Model Verif.Spec

/-- Tiles borrowed so far by a hand with negative counts. -/
def borrow (h : Kind → Int) : Int := sumK (fun k => max 0 (-(h k)))

/-- hand minus a group. -/
def hsub (h : Kind → Int) (g : Group) : Kind → Int := fun k => h k - g.count k

/-- How many more tiles must be borrowed to take `g` out of `h`. -/
def marg (h : Kind → Int) (g : Group) : Int := borrow (hsub h g) - borrow h

theorem borrow_nonneg (h : Kind → Int) : 0 ≤ borrow h := sumK_nonneg (fun k _ => by omega)

theorem deficit_nonneg (D : List Group) (h : Kind → Int) : 0 ≤ deficit D h :=
  sumK_nonneg (fun k _ => by omega)

@[simp] theorem deficit_nil (h : Kind → Int) : deficit [] h = borrow h := by
  unfold deficit borrow
  refine sumK_congr (fun k _ => ?_)
  simp

theorem deficit_cons (g : Group) (D : List Group) (h : Kind → Int) :
    deficit (g :: D) h = deficit D (hsub h g) := by
  unfold deficit hsub
  refine sumK_congr (fun k _ => ?_)
  rw [need_cons]
  omega

theorem deficit_perm {D D' : List Group} (hp : D.Perm D') (h : Kind → Int) :
    deficit D h = deficit D' h := by
  unfold deficit
  refine sumK_congr (fun k _ => ?_)
  rw [need_perm hp]

theorem deficit_congr {D : List Group} {h h' : Kind → Int} (hh : ∀ k, ValidKind k → h k = h' k) :
    deficit D h = deficit D h' := by
  unfold deficit
  refine sumK_congr (fun k hk => ?_)
  rw [hh k hk]

theorem borrow_le_deficit (D : List Group) (h : Kind → Int) : borrow h ≤ deficit D h := by
  unfold borrow deficit
  refine sumK_mono (fun k _ => ?_)
  have := need_nonneg D k
  omega

theorem marg_nonneg (h : Kind → Int) (g : Group) : 0 ≤ marg h g := by
  unfold marg borrow hsub
  have : sumK (fun k => max 0 (-(h k))) ≤ sumK (fun k => max 0 (-(h k - g.count k))) :=
    sumK_mono (fun k _ => by have := Group.count_nonneg g k; omega)
  omega

theorem marg_le_size (h : Kind → Int) {g : Group} (hg : g.Proper) : marg h g ≤ g.size := by
  unfold marg borrow hsub
  have h1 := Group.sumK_count hg
  have h2 : sumK (fun k => max 0 (-(h k - g.count k))) ≤ sumK (fun k => max 0 (-(h k)) + g.count k) :=
    sumK_mono (fun k _ => by have := Group.count_nonneg g k; omega)
  rw [sumK_add] at h2
  have h3 : sumK (fun k => g.count k) = g.size := h1
  omega

theorem marg_mono {h h' : Kind → Int} (g : Group) (hle : ∀ k, ValidKind k → h' k ≤ h k) :
    marg h g ≤ marg h' g := by
  unfold marg borrow hsub
  have h2 : sumK (fun k => max 0 (-(h k - g.count k)) + max 0 (-(h' k))) ≤
      sumK (fun k => max 0 (-(h' k - g.count k)) + max 0 (-(h k))) :=
    sumK_mono (fun k hk => by have := Group.count_nonneg g k; have := hle k hk; omega)
  rw [sumK_add, sumK_add] at h2
  omega

theorem marg_congr {h h' : Kind → Int} (g : Group) (hle : ∀ k, ValidKind k → h' k = h k) :
    marg h g = marg h' g := by
  have h1 := marg_mono (h := h) (h' := h') g (fun k hk => by rw [hle k hk]; exact Int.le_refl _)
  have h2 := marg_mono (h := h') (h' := h) g (fun k hk => by rw [hle k hk]; exact Int.le_refl _)
  omega

theorem marg_hsub_ge (h : Kind → Int) (g g' : Group) : marg h g' ≤ marg (hsub h g) g' :=
  marg_mono g' (fun k _ => by unfold hsub; have := Group.count_nonneg g k; omega)

/-- If every group costs at least `c`, together they cost at least `c` each. -/
theorem deficit_ge_of_marg {c : Int} (D : List Group) (h : Kind → Int)
    (hc : ∀ g ∈ D, c ≤ marg h g) : borrow h + (D.length : Int) * c ≤ deficit D h := by
  induction D generalizing h with
  | nil => simp
  | cons g D ih =>
    have h1 := ih (hsub h g) (fun g' hg' => Int.le_trans (hc g' (by simp [hg'])) (marg_hsub_ge h g g'))
    have h2 := hc g (by simp)
    rw [deficit_cons]
    unfold marg at h2
    have : ((g :: D).length : Int) * c = (D.length : Int) * c + c := by
      simp [Int.add_mul]
    omega

/-! ### Least step -/

theorem exists_least {P : Int → Prop} (h0 : ∀ x, P x → 0 ≤ x) (hex : ∃ x, P x) :
    ∃ x, P x ∧ ∀ y, P y → x ≤ y := by
  obtain ⟨x, hx⟩ := hex
  have : ∀ n : Nat, ∀ x, P x → x.toNat = n → ∃ x, P x ∧ ∀ y, P y → x ≤ y := by
    intro n
    induction n using Nat.strongRecOn with
    | _ n ih =>
      intro x hx hn
      by_cases h : ∃ y, P y ∧ y < x
      · obtain ⟨y, hy, hlt⟩ := h
        have := h0 y hy
        have := h0 x hx
        exact ih y.toNat (by omega) y hy rfl
      · refine ⟨x, hx, fun y hy => ?_⟩
        apply Int.not_lt.1
        intro hlt
        exact h ⟨y, hy, hlt⟩
  exact this _ x hx rfl

theorem exists_isStep {lim : Bool} {w : Pattern} (h : Kind → Int)
    (hex : ∃ D, Legal w D ∧ Feasible lim D) : ∃ n, IsStep lim w h n := by
  obtain ⟨D, h1, h2⟩ := hex
  obtain ⟨x, ⟨D', h3, h4, h5⟩, h6⟩ := exists_least
    (P := fun x => ∃ D, Legal w D ∧ Feasible lim D ∧ deficit D h = x)
    (by rintro x ⟨D, _, _, rfl⟩; exact deficit_nonneg _ _) ⟨_, D, h1, h2, rfl⟩
  refine ⟨x - 1, ⟨D', h3, h4, by omega⟩, fun D'' a b => ?_⟩
  have := h6 _ ⟨D'', a, b, rfl⟩
  omega

theorem _root_.Verif.Spec.IsStep.unique {lim : Bool} {w : Pattern} {h : Kind → Int} {n n' : Int} (a : IsStep lim w h n)
    (b : IsStep lim w h n') : n = n' := by
  obtain ⟨⟨D, h1, h2, h3⟩, h4⟩ := a
  obtain ⟨⟨D', h1', h2', h3'⟩, h4'⟩ := b
  have := h4 D' h1' h2'
  have := h4' D h1 h2
  omega

theorem _root_.Verif.Spec.IsStep.ge {lim : Bool} {w : Pattern} {h : Kind → Int} {n : Int} (a : IsStep lim w h n) : -1 ≤ n := by
  obtain ⟨⟨D, h1, h2, h3⟩, h4⟩ := a
  have := deficit_nonneg D h
  omega

theorem _root_.Verif.Spec.IsStep.congr {lim : Bool} {w : Pattern} {h h' : Kind → Int} {n : Int}
    (hh : ∀ k, ValidKind k → h k = h' k) (a : IsStep lim w h n) : IsStep lim w h' n := by
  obtain ⟨⟨D, h1, h2, h3⟩, h4⟩ := a
  refine ⟨⟨D, h1, h2, by rw [← h3]; exact (deficit_congr hh).symm⟩, fun D' a b => ?_⟩
  rw [← deficit_congr hh]
  exact h4 D' a b

theorem deficit_zero_iff {D : List Group} {h : Kind → Int} (hp : ∀ g ∈ D, g.Proper)
    (hh : ∀ k, 0 ≤ h k) : deficit D h = 0 ↔ ∀ k, need D k ≤ h k := by
  constructor
  · intro h0 k
    by_cases hk : ValidKind k
    · have := le_sumK (f := fun k => max 0 (need D k - h k)) (fun k _ => by omega) hk
      unfold deficit at h0
      omega
    · have : need D k = 0 := by
        apply Classical.byContradiction
        intro hne
        obtain ⟨g, hg, hc⟩ := exists_of_need_ne hne
        exact hk ((hp g hg).valid_of_count hc)
      have := hh k
      omega
  · intro h0
    unfold deficit
    have : sumK (fun k => max 0 (need D k - h k)) = sumK (fun _ => 0) :=
      sumK_congr (fun k _ => by have := h0 k; omega)
    rw [this, sumK_zero]

theorem need_invalid {D : List Group} (hp : ∀ g ∈ D, g.Proper) {k : Kind} (hk : ¬ ValidKind k) :
    need D k = 0 := by
  apply Classical.byContradiction
  intro hne
  obtain ⟨g, hg, hc⟩ := exists_of_need_ne hne
  exact hk ((hp g hg).valid_of_count hc)

theorem wins_of_neg_one {lim : Bool} {w : Pattern} {h : Kind → Int} (hh : ∀ k, 0 ≤ h k)
    (a : IsStep lim w h (-1)) : Wins w h := by
  obtain ⟨⟨D, h1, h2, h3⟩, h4⟩ := a
  exact ⟨D, h1, (deficit_zero_iff h1.proper hh).1 (by omega)⟩

theorem neg_one_of_wins {lim : Bool} {w : Pattern} {h : Kind → Int} (hh : ∀ k, 0 ≤ h k)
    (h4 : lim = true → AtMostFour h) (a : Wins w h) : IsStep lim w h (-1) := by
  obtain ⟨D, h1, h2⟩ := a
  refine ⟨⟨D, h1, ?_, ?_⟩, ?_⟩
  · intro hl k
    have := h4 hl k
    have := h2 k
    omega
  · have := (deficit_zero_iff h1.proper hh).2 h2
    omega
  · intro D' _ _
    have := deficit_nonneg D' h
    omega

/-! ### One tile more or less -/

theorem sum_single {l : List Kind} (hn : l.Nodup) {t : Kind} (ht : t ∈ l) :
    (l.map (fun k => if k = t then (1 : Int) else 0)).sum = 1 := by
  induction l with
  | nil => simp at ht
  | cons a l ih =>
    rw [List.nodup_cons] at hn
    simp only [List.map_cons, List.sum_cons]
    by_cases ha : a = t
    · subst ha
      have : (l.map (fun k => if k = a then (1 : Int) else 0)).sum = 0 := by
        have h0 : ∀ l' : List Kind, a ∉ l' → (l'.map (fun k => if k = a then (1 : Int) else 0)).sum = 0 := by
          intro l'
          induction l' with
          | nil => intro _; rfl
          | cons b l' ih' =>
            intro hb
            simp only [List.mem_cons, not_or] at hb
            simp only [List.map_cons, List.sum_cons, ih' hb.2]
            have : ¬ b = a := fun h => hb.1 h.symm
            simp [this]
        exact h0 l hn.1
      simp [this]
    · have ht' : t ∈ l := by
        rcases List.mem_cons.1 ht with h | h
        · exact absurd h.symm ha
        · exact h
      rw [if_neg ha, ih hn.2 ht']
      rfl

theorem sumK_single {t : Kind} (ht : ValidKind t) : sumK (fun k => if k = t then 1 else 0) = 1 :=
  sum_single nodup_allKinds (mem_allKinds.2 ht)

theorem deficit_plus_pos {D : List Group} {h : Kind → Int} {t : Kind} (ht : ValidKind t)
    (hlt : h t < need D t) : deficit D (plus h t) = deficit D h - 1 := by
  have h1 : deficit D h = deficit D (plus h t) + 1 := by
    rw [← sumK_single ht]
    unfold deficit plus
    rw [← sumK_add]
    refine sumK_congr (fun k _ => ?_)
    by_cases hk : k = t
    · subst hk; simp only [if_true]; omega
    · simp only [hk, if_false]; omega
  omega

theorem deficit_plus_neg {D : List Group} {h : Kind → Int} {t : Kind}
    (hlt : need D t ≤ h t) : deficit D (plus h t) = deficit D h := by
  unfold deficit plus
  refine sumK_congr (fun k _ => ?_)
  by_cases hk : k = t
  · subst hk; simp only [if_true]; omega
  · simp only [hk, if_false]

theorem minus_plus (h : Kind → Int) (t : Kind) : plus (minus h t) t = h := by
  funext k; unfold plus minus; split <;> omega

theorem deficit_minus_pos {D : List Group} {h : Kind → Int} {t : Kind}
    (hlt : need D t < h t) : deficit D (minus h t) = deficit D h := by
  have := deficit_plus_neg (D := D) (h := minus h t) (t := t) (by simp [minus]; omega)
  rw [minus_plus] at this
  exact this.symm

theorem deficit_minus_neg {D : List Group} {h : Kind → Int} {t : Kind} (ht : ValidKind t)
    (hlt : h t ≤ need D t) : deficit D (minus h t) = deficit D h + 1 := by
  have := deficit_plus_pos (D := D) (h := minus h t) ht (by simp [minus]; omega)
  rw [minus_plus] at this
  omega

theorem isStep_plus {lim : Bool} {w : Pattern} {h : Kind → Int} {t : Kind} {n n' : Int}
    (ht : ValidKind t) (a : IsStep lim w h n) (b : IsStep lim w (plus h t) n') :
    n - 1 ≤ n' ∧ n' ≤ n := by
  obtain ⟨⟨D, h1, h2, h3⟩, h4⟩ := a
  obtain ⟨⟨D', h1', h2', h3'⟩, h4'⟩ := b
  have a1 := h4 D' h1' h2'
  have a2 := h4' D h1 h2
  by_cases c1 : h t < need D t
  · rw [deficit_plus_pos ht c1] at a2
    by_cases c2 : h t < need D' t
    · rw [deficit_plus_pos ht c2] at h3'; omega
    · rw [deficit_plus_neg (by omega)] at h3'; omega
  · rw [deficit_plus_neg (by omega)] at a2
    by_cases c2 : h t < need D' t
    · rw [deficit_plus_pos ht c2] at h3'; omega
    · rw [deficit_plus_neg (by omega)] at h3'; omega

/-- Useful kinds are those lacking in some best win. -/
theorem useful_iff {w : Pattern} {h : Kind → Int} {n : Int} (a : IsStep true w h n) {t : Kind}
    (ht : ValidKind t) :
    UsefulKind w h t ↔
      ∃ D, Legal w D ∧ Feasible true D ∧ deficit D h = n + 1 ∧ h t < need D t := by
  constructor
  · rintro ⟨_, h4, m, n', hm, hn', hlt⟩
    have := hm.unique a
    subst this
    obtain ⟨⟨D', h1', h2', h3'⟩, h4'⟩ := hn'
    have a1 := a.2 D' h1' h2'
    by_cases c : h t < need D' t
    · rw [deficit_plus_pos ht c] at h3'
      exact ⟨D', h1', h2', by omega, c⟩
    · rw [deficit_plus_neg (by omega)] at h3'
      omega
  · rintro ⟨D, h1, h2, h3, h4⟩
    obtain ⟨n', hn'⟩ := exists_isStep (plus h t) ⟨D, h1, h2⟩
    have h5 := hn'.2 D h1 h2
    rw [deficit_plus_pos ht h4] at h5
    have h6 := h2 rfl t
    exact ⟨ht, by omega, n, n', a, hn', by omega⟩

/-- Keeping the step after a discard. -/
theorem isStep_minus_iff {w : Pattern} {h : Kind → Int} {n : Int} (a : IsStep true w h n) {t : Kind}
    (ht : ValidKind t) :
    IsStep true w (minus h t) n ↔
      ∃ D, Legal w D ∧ Feasible true D ∧ deficit D h = n + 1 ∧ need D t < h t := by
  have hge : ∀ D, deficit D h ≤ deficit D (minus h t) := by
    intro D
    by_cases c : need D t < h t
    · rw [deficit_minus_pos c]; exact Int.le_refl _
    · rw [deficit_minus_neg ht (by omega)]; omega
  constructor
  · rintro ⟨⟨D, h1, h2, h3⟩, h4⟩
    have h5 := a.2 D h1 h2
    have h6 := hge D
    refine ⟨D, h1, h2, by omega, ?_⟩
    apply Int.not_le.1
    intro c
    rw [deficit_minus_neg ht c] at h3
    omega
  · rintro ⟨D, h1, h2, h3, h4⟩
    refine ⟨⟨D, h1, h2, by rw [deficit_minus_pos h4]; exact h3⟩, fun D' a' b' => ?_⟩
    have := a.2 D' a' b'
    have := hge D'
    omega

/-- The useful kinds after a discard that keeps the step. -/
theorem useful_minus_iff {w : Pattern} {h : Kind → Int} {n : Int} (a : IsStep true w h n) {t u : Kind}
    (ht : ValidKind t) (hu : ValidKind u) (b : IsStep true w (minus h t) n) :
    UsefulKind w (minus h t) u ↔
      ∃ D, Legal w D ∧ Feasible true D ∧ deficit D h = n + 1 ∧ need D t < h t ∧ h u < need D u := by
  rw [useful_iff b hu]
  constructor
  · rintro ⟨D, h1, h2, h3, h4⟩
    have h5 := a.2 D h1 h2
    have c : need D t < h t := by
      apply Int.not_le.1
      intro c
      rw [deficit_minus_neg ht c] at h3
      omega
    rw [deficit_minus_pos c] at h3
    refine ⟨D, h1, h2, h3, c, ?_⟩
    unfold minus at h4
    split at h4
    · rename_i he; subst he; omega
    · exact h4
  · rintro ⟨D, h1, h2, h3, h4, h5⟩
    refine ⟨D, h1, h2, by rw [deficit_minus_pos h4]; exact h3, ?_⟩
    unfold minus
    split <;> omega

/-! ### Adding tiles versus lacking tiles -/

theorem canReach_deficit {w : Pattern} {h : Kind → Int} {n : Nat} (a : CanReach w h n) :
    ∃ D, Legal w D ∧ Feasible true D ∧ deficit D h ≤ n := by
  obtain ⟨add, h0, _, h2, h3, D, h4, h5⟩ := a
  have h5 : ∀ k, need D k ≤ h k + add k := h5
  refine ⟨D, h4, fun _ k => ?_, ?_⟩
  · have := h5 k
    have := h3 k
    omega
  · rw [← h2]
    unfold deficit
    refine sumK_mono (fun k _ => ?_)
    have := h5 k
    have := h0 k
    omega

theorem deficit_canReach {w : Pattern} {h : Kind → Int} (hh : ∀ k, 0 ≤ h k) (h4 : AtMostFour h)
    {D : List Group} (h1 : Legal w D) (h2 : Feasible true D) :
    CanReach w h (deficit D h).toNat := by
  have hn := deficit_nonneg D h
  refine ⟨fun k => max 0 (need D k - h k), fun k => by show 0 ≤ max 0 (need D k - h k); omega, fun k hk => ?_, ?_, fun k => ?_, D, h1,
    fun k => by show need D k ≤ h k + max 0 (need D k - h k); omega⟩
  · show max 0 (need D k - h k) = 0
    rw [need_invalid h1.proper hk]
    have := hh k
    omega
  · show deficit D h = _
    omega
  · have := h2 rfl k
    have := h4 k
    show h k + max 0 (need D k - h k) ≤ 4
    omega

end Verif.Proofs
