import Verif.Proofs.HeurTop
import Mathlib.Data.List.Perm.Subperm

/-! Upper bounds on the waiting step of real hands (C19). -/
namespace Verif.Proofs
open Verif.Py Verif.Model Verif.Spec

theorem sum_mem_indicator (T : List Kind) (hT : T.Nodup) (l : List Kind) (hl : l.Nodup)
    (hsub : ∀ k ∈ T, k ∈ l) :
    (l.map (fun k => if k ∈ T then (1 : Int) else 0)).sum = T.length := by
  have h1 : (l.map (fun k => if k ∈ T then (1 : Int) else 0)).sum =
      ((l.filter (fun k => decide (k ∈ T))).length : Int) := by
    clear hl hsub
    induction l with
    | nil => rfl
    | cons a l ih =>
      simp only [List.map_cons, List.sum_cons, ih, List.filter_cons, decide_eq_true_eq]
      split <;> simp <;> omega
  rw [h1]
  congr 1
  have hp : (l.filter (fun k => decide (k ∈ T))).Perm T := by
    rw [List.perm_ext_iff_of_nodup (hl.filter _) hT]
    intro a
    simp only [List.mem_filter, decide_eq_true_eq]
    exact ⟨fun h => h.2, fun h => ⟨hsub a h, h⟩⟩
  exact hp.length_eq

theorem sumK_indicator (T : List Kind) (hT : T.Nodup) (hv : ∀ k ∈ T, ValidKind k) :
    sumK (fun k => if k ∈ T then 1 else 0) = T.length :=
  sum_mem_indicator T hT allKinds nodup_allKinds (fun k hk => mem_allKinds.2 (hv k hk))

/-- every set of kinds extends to a set of a given size up to 34 -/
theorem extend_kinds (S : List Kind) (hS : S.Nodup) (hv : ∀ k ∈ S, ValidKind k) (n : Nat)
    (hn : n ≤ 34) (hle : S.length ≤ n) :
    ∃ T : List Kind, T.Nodup ∧ (∀ k ∈ T, ValidKind k) ∧ T.length = n ∧ ∀ k ∈ S, k ∈ T := by
  have h34 : allKinds.length = 34 := by decide
  have hsplit : (allKinds.filter (fun k => decide (k ∈ S))).length = S.length := by
    have hp : (allKinds.filter (fun k => decide (k ∈ S))).Perm S := by
      rw [List.perm_ext_iff_of_nodup (nodup_allKinds.filter _) hS]
      intro a
      simp only [List.mem_filter, decide_eq_true_eq]
      exact ⟨fun h => h.2, fun h => ⟨mem_allKinds.2 (hv a h), h⟩⟩
    exact hp.length_eq
  have hlen : (allKinds.filter (fun k => !decide (k ∈ S))).length = 34 - S.length := by
    have : ∀ l : List Kind, (l.filter (fun k => decide (k ∈ S))).length +
        (l.filter (fun k => !decide (k ∈ S))).length = l.length := by
      intro l
      induction l with
      | nil => rfl
      | cons a l ih => by_cases h : a ∈ S <;> simp [h] <;> omega
    have := this allKinds
    omega
  refine ⟨S ++ (allKinds.filter (fun k => !decide (k ∈ S))).take (n - S.length), ?_, ?_, ?_, ?_⟩
  · rw [List.nodup_append]
    refine ⟨hS, (nodup_allKinds.filter _).sublist (List.take_sublist _ _), ?_⟩
    intro a ha b hb hab
    subst hab
    have := (List.mem_filter.1 (List.mem_of_mem_take hb)).2
    simp [ha] at this
  · intro k hk
    rcases List.mem_append.1 hk with h | h
    · exact hv k h
    · exact mem_allKinds.1 (List.mem_filter.1 (List.mem_of_mem_take h)).1
  · rw [List.length_append, List.length_take, hlen]
    omega
  · intro k hk; simp [hk]

theorem need_map_pair (T : List Kind) (hT : T.Nodup) (k : Kind) :
    need (T.map Group.pair) k = if k ∈ T then 2 else 0 := by
  induction T with
  | nil => simp
  | cons a T ih =>
    rw [List.nodup_cons] at hT
    rw [List.map_cons, need_cons, ih hT.2]
    by_cases h : k = a
    · subst h; simp [Group.count, hT.1]
    · simp [Group.count, h]

theorem need_map_trip (T : List Kind) (hT : T.Nodup) (k : Kind) :
    need (T.map Group.trip) k = if k ∈ T then 3 else 0 := by
  induction T with
  | nil => simp
  | cons a T ih =>
    rw [List.nodup_cons] at hT
    rw [List.map_cons, need_cons, ih hT.2]
    by_cases h : k = a
    · subst h; simp [Group.count, hT.1]
    · simp [Group.count, h]

/-- kinds present in a hand -/
def present (h : Kind → Int) : List Kind := allKinds.filter (fun k => decide (1 ≤ h k))

theorem nodup_present (h : Kind → Int) : (present h).Nodup := nodup_allKinds.filter _

theorem mem_present {h : Kind → Int} {k : Kind} : k ∈ present h ↔ ValidKind k ∧ 1 ≤ h k := by
  unfold present
  simp only [List.mem_filter, decide_eq_true_eq, mem_allKinds]

theorem sumK_le_mul {f g : Kind → Int} (h : ∀ k, ValidKind k → f k ≤ g k) : sumK f ≤ sumK g := sumK_mono h

theorem sumK_mul (c : Int) (f : Kind → Int) : sumK (fun k => c * f k) = c * sumK f := by
  unfold sumK
  generalize allKinds = l
  induction l with
  | nil => simp
  | cons a l ih => simp only [List.map_cons, List.sum_cons, ih, Int.mul_add]

theorem sumK_sub (f g : Kind → Int) : sumK (fun k => f k - g k) = sumK f - sumK g := by
  have := sumK_add (fun k => f k - g k) g
  have h2 : sumK (fun k => f k - g k + g k) = sumK f := sumK_congr (fun k _ => by omega)
  omega

/-- overlap bound -/
theorem deficit_le_of_overlap {D : List Group} {h : Kind → Int} (c : Kind → Int)
    (hc : ∀ k, ValidKind k → c k ≤ need D k ∧ c k ≤ h k) : deficit D h ≤ sumK (need D) - sumK c := by
  rw [← sumK_sub]
  unfold deficit
  refine sumK_mono (fun k hk => ?_)
  have := hc k hk
  omega

theorem total_le_four_present {h : Kind → Int} (h4 : AtMostFour h) (h0 : ∀ k, 0 ≤ h k) :
    sumK h ≤ 4 * ((present h).length : Int) := by
  rw [← sumK_indicator (present h) (nodup_present h) (fun k hk => (mem_present.1 hk).1), ← sumK_mul]
  refine sumK_mono (fun k hk => ?_)
  by_cases hp : k ∈ present h
  · rw [if_pos hp]; have := h4 k; omega
  · rw [if_neg hp]
    have : ¬ 1 ≤ h k := fun hh => hp (mem_present.2 ⟨hk, hh⟩)
    omega

/-- A normal-form win with at most `2 m + 1` missing tiles. -/
theorem normal_bound {h : Kind → Int} (h0 : ∀ k, 0 ≤ h k) (h4 : AtMostFour h) {m : Nat} (hm : m ≤ 4)
    (hsize : 3 * (m : Int) + 1 ≤ sumK h) :
    ∃ D, Legal (.normal 1 m) D ∧ Feasible true D ∧ deficit D h ≤ 2 * (m : Int) + 1 := by
  have hS := total_le_four_present h4 h0
  have hSm : m ≤ (present h).length := by omega
  -- a list of m+1 distinct kinds whose overlap with the hand is at least m+1
  have key : ∃ (a : Kind) (T : List Kind), (a :: T).Nodup ∧ (∀ k ∈ a :: T, ValidKind k) ∧ T.length = m ∧
      ∃ c : Kind → Int, (∀ k, ValidKind k → c k ≤ (if k ∈ T then 3 else if k = a then 2 else 0) ∧ c k ≤ h k) ∧
        (m : Int) + 1 ≤ sumK c := by
    by_cases hbig : m + 1 ≤ (present h).length
    · have hl : ((present h).take (m + 1)).length = m + 1 := by rw [List.length_take]; omega
      have hn : ((present h).take (m + 1)).Nodup := (nodup_present h).sublist (List.take_sublist _ _)
      have hp : ∀ k ∈ (present h).take (m + 1), ValidKind k ∧ 1 ≤ h k :=
        fun k hk => mem_present.1 (List.mem_of_mem_take hk)
      generalize (present h).take (m + 1) = U at *
      cases U with
      | nil => simp at hl
      | cons a T =>
        refine ⟨a, T, hn, fun k hk => (hp k hk).1, by simpa using hl,
          fun k => if k ∈ a :: T then 1 else 0, ?_, ?_⟩
        · intro k hk
          have h0k := h0 k
          by_cases hka : k = a
          · subst hka
            have := (hp k (by simp)).2
            rw [List.nodup_cons] at hn
            simp [hn.1]; omega
          · by_cases hkT : k ∈ T
            · have := (hp k (by simp [hkT])).2
              simp [hkT]; omega
            · simp [hka, hkT]; omega
        · rw [sumK_indicator _ hn (fun k hk => (hp k hk).1), hl]; simp
    · have hl : (present h).length = m := by omega
      -- some kind occurs twice
      have h2 : ∃ k, ValidKind k ∧ 2 ≤ h k := by
        apply Classical.byContradiction
        intro hno
        have : sumK h ≤ sumK (fun k => if k ∈ present h then 1 else 0) := by
          refine sumK_mono (fun k hk => ?_)
          have h3 : ¬ 2 ≤ h k := fun hh => hno ⟨k, hk, hh⟩
          by_cases hp : k ∈ present h
          · rw [if_pos hp]; omega
          · rw [if_neg hp]
            have : ¬ 1 ≤ h k := fun hh => hp (mem_present.2 ⟨hk, hh⟩)
            omega
        rw [sumK_indicator _ (nodup_present h) (fun k hk => (mem_present.1 hk).1)] at this
        omega
      obtain ⟨b, hb, hb2⟩ := h2
      obtain ⟨U, hU, hUv, hUl, hSU⟩ := extend_kinds (present h) (nodup_present h)
        (fun k hk => (mem_present.1 hk).1) (m + 1) (by omega) (by omega)
      -- a kind outside the hand
      have hex : ∃ a, a ∈ U ∧ a ∉ present h := by
        apply Classical.byContradiction
        intro hno
        have hsub : ∀ a ∈ U, a ∈ present h := fun a ha => Classical.byContradiction (fun hc => hno ⟨a, ha, hc⟩)
        have := (List.Nodup.subperm hU hsub).length_le
        omega
      obtain ⟨a, haU, haS⟩ := hex
      refine ⟨a, present h, by simp [haS, nodup_present], ?_, hl,
        fun k => (if k ∈ present h then 1 else 0) + (if k = b then 1 else 0), ?_, ?_⟩
      · intro k hk
        rcases List.mem_cons.1 hk with rfl | hk
        · exact hUv k haU
        · exact (mem_present.1 hk).1
      · intro k hk
        have h0k := h0 k
        by_cases hkb : k = b
        · subst hkb
          have hbp : k ∈ present h := mem_present.2 ⟨hk, by omega⟩
          simp [hbp]; omega
        · by_cases hp : k ∈ present h
          · have := (mem_present.1 hp).2
            simp [hp, hkb]; omega
          · simp only [hp, hkb, if_false]
            split <;> omega
      · rw [sumK_add, sumK_indicator _ (nodup_present h) (fun k hk => (mem_present.1 hk).1), sumK_single hb]
        omega
  obtain ⟨a, T, hn, hv, hl, c, hc, hsum⟩ := key
  rw [List.nodup_cons] at hn
  have hneed : ∀ k, need (.pair a :: T.map Group.trip) k = if k ∈ T then 3 else if k = a then 2 else 0 := by
    intro k
    rw [need_cons, need_map_trip T hn.2]
    by_cases hka : k = a
    · subst hka; simp [Group.count, hn.1]
    · simp [Group.count, hka]
  refine ⟨.pair a :: T.map Group.trip, ⟨?_, ?_, ?_⟩, ?_, ?_⟩
  · intro g hg
    rcases List.mem_cons.1 hg with rfl | hg
    · exact hv a (by simp)
    · obtain ⟨k, hk, rfl⟩ := List.mem_map.1 hg
      exact hv k (by simp [hk])
  · have : (T.map Group.trip).filter (fun g => g.isPair) = [] := by
      rw [List.filter_eq_nil_iff]
      intro g hg
      obtain ⟨k, _, rfl⟩ := List.mem_map.1 hg
      simp [Group.isPair]
    rw [List.filter_cons, if_pos (by simp [Group.isPair]), this]; rfl
  · have : (T.map Group.trip).filter (fun g => !g.isPair) = T.map Group.trip := by
      rw [List.filter_eq_self]
      intro g hg
      obtain ⟨k, _, rfl⟩ := List.mem_map.1 hg
      simp [Group.isPair]
    rw [List.filter_cons, if_neg (by simp [Group.isPair]), this, List.length_map, hl]
  · intro _ k
    rw [hneed]
    split
    · omega
    · split <;> omega
  · have hd := deficit_le_of_overlap (D := .pair a :: T.map Group.trip) (h := h) c
      (fun k hk => by rw [hneed]; exact hc k hk)
    have htot : sumK (need (.pair a :: T.map Group.trip)) = 3 * (m : Int) + 2 := by
      have : sumK (need (.pair a :: T.map Group.trip)) =
          sumK (fun k => 3 * (if k ∈ T then 1 else 0) + 2 * (if k = a then 1 else 0)) := by
        refine sumK_congr (fun k _ => ?_)
        rw [hneed]
        by_cases hka : k = a
        · subst hka; simp [hn.1]
        · by_cases hkT : k ∈ T <;> simp [hka, hkT]
      rw [this, sumK_add, sumK_mul, sumK_mul, sumK_indicator T hn.2 (fun k hk => hv k (by simp [hk])),
        sumK_single (hv a (by simp)), hl]
      omega
    omega

/-- A seven-pairs win with at most 7 missing tiles. -/
theorem pairs_bound {h : Kind → Int} (h0 : ∀ k, 0 ≤ h k) (h4 : AtMostFour h) (hsize : 13 ≤ sumK h) :
    ∃ D, Legal (.unique 7 []) D ∧ Feasible true D ∧ deficit D h ≤ 7 := by
  have key : ∃ T : List Kind, T.Nodup ∧ (∀ k ∈ T, ValidKind k) ∧ T.length = 7 ∧
      ∃ c : Kind → Int, (∀ k, ValidKind k → c k ≤ (if k ∈ T then 2 else 0) ∧ c k ≤ h k) ∧
        7 ≤ sumK c := by
    by_cases hbig : 7 ≤ (present h).length
    · have hl : ((present h).take 7).length = 7 := by rw [List.length_take]; omega
      have hn : ((present h).take 7).Nodup := (nodup_present h).sublist (List.take_sublist _ _)
      have hp : ∀ k ∈ (present h).take 7, ValidKind k ∧ 1 ≤ h k :=
        fun k hk => mem_present.1 (List.mem_of_mem_take hk)
      refine ⟨_, hn, fun k hk => (hp k hk).1, hl, fun k => if k ∈ (present h).take 7 then 1 else 0, ?_, ?_⟩
      · intro k hk
        have h0k := h0 k
        by_cases hkT : k ∈ (present h).take 7
        · have := (hp k hkT).2
          simp only [hkT, if_true]; omega
        · simp only [hkT, if_false]; omega
      · rw [sumK_indicator _ hn (fun k hk => (hp k hk).1), hl]; simp
    · obtain ⟨U, hU, hUv, hUl, hSU⟩ := extend_kinds (present h) (nodup_present h)
        (fun k hk => (mem_present.1 hk).1) 7 (by omega) (by omega)
      refine ⟨U, hU, hUv, hUl, fun k => min 2 (h k), ?_, ?_⟩
      · intro k hk
        have h0k := h0 k
        show min 2 (h k) ≤ _ ∧ min 2 (h k) ≤ _
        by_cases hkT : k ∈ U
        · simp only [hkT, if_true]; omega
        · have : ¬ 1 ≤ h k := fun hh => hkT (hSU k (mem_present.2 ⟨hk, hh⟩))
          simp only [hkT, if_false]; omega
      · have h2 : sumK h ≤ sumK (fun k => 2 * min 2 (h k)) :=
          sumK_mono (fun k _ => by have := h4 k; have := h0 k; omega)
        rw [sumK_mul] at h2
        omega
  obtain ⟨T, hn, hv, hl, c, hc, hsum⟩ := key
  have hneed := need_map_pair T hn
  refine ⟨T.map Group.pair, ⟨?_, ?_, by simp [hl]⟩, ?_, ?_⟩
  · intro g hg
    obtain ⟨k, hk, rfl⟩ := List.mem_map.1 hg
    exact ⟨k, rfl, hv k hk, by simp⟩
  · exact hn.map (fun a b h => by cases h; rfl)
  · intro _ k
    rw [hneed]; split <;> omega
  · have hd := deficit_le_of_overlap (D := T.map Group.pair) (h := h) c
      (fun k hk => by rw [hneed]; exact hc k hk)
    have htot : sumK (need (T.map Group.pair)) = 14 := by
      have : sumK (need (T.map Group.pair)) = sumK (fun k => 2 * (if k ∈ T then 1 else 0)) := by
        refine sumK_congr (fun k _ => ?_)
        rw [hneed]; split <;> simp
      rw [this, sumK_mul, sumK_indicator T hn hv, hl]
      omega
    omega

end Verif.Proofs
