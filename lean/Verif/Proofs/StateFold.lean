import Verif.Spec.State
import Verif.Proofs.Moves
import Verif.Props.Meld
import Mathlib.Data.List.Induction
import Mathlib.Data.List.Nodup

namespace Verif.Proofs
open Verif.Py Verif.Model Verif.Spec

theorem nodup_eraseDups {α : Type} [DecidableEq α] (l : List α) : l.eraseDups.Nodup := by
  generalize hn : l.length = n
  induction n using Nat.strongRecOn generalizing l with
  | _ n ih =>
    cases l with
    | nil => simp
    | cons a l =>
      rw [List.eraseDups_cons, List.nodup_cons]
      constructor
      · rw [List.mem_eraseDups]; simp
      · have : (l.filter (fun b => !b == a)).length ≤ l.length := List.length_filter_le _ _
        simp only [List.length_cons] at hn
        exact ih _ (by omega) _ rfl

/-! ### tracking the same thing -/

mutual
theorem sameTracking_iff : ∀ s t : GState, sameTracking s t = true ↔ shape s = shape t
  | .hand p _, t => by cases t <;> simp [sameTracking, shape]
  | .melds p _, t => by cases t <;> simp [sameTracking, shape]
  | .discards p _, t => by cases t <;> simp [sameTracking, shape]
  | .dora _, t => by cases t <;> simp [sameTracking, shape]
  | .invisible f _, t => by cases t <;> simp [sameTracking, shape]
  | .coll ns ss, t => by
    cases t with
    | coll ms ts => simp [sameTracking, shape, sameTrackings_iff ss ts]
    | _ => simp [sameTracking, shape]
theorem sameTrackings_iff : ∀ ss ts : List GState, sameTrackings ss ts = true ↔ shapes ss = shapes ts
  | [], ts => by cases ts <;> simp [sameTrackings, shapes]
  | s :: ss, ts => by
    cases ts with
    | nil => simp [sameTrackings, shapes]
    | cons t ts => simp [sameTrackings, shapes, sameTracking_iff s t, sameTrackings_iff ss ts]
end

theorem passedEvents_eq (s : GState) (es : List Event) : s.passedEvents es = scanEvery s es :=
  keyLoop_eq s es s rfl

theorem scanEvery_append (s : GState) (a b : List Event) :
    scanEvery s (a ++ b) = (scanEvery s a).bind (fun s' => scanEvery s' b) := by
  unfold scanEvery
  rw [List.foldlM_append]
  rfl

theorem shape_scanEvery {s s' : GState} {es : List Event} (h : scanEvery s es = .ok s') : shape s' = shape s := by
  induction es generalizing s with
  | nil => cases h; rfl
  | cons e es ih =>
    unfold scanEvery at h
    simp only [List.foldlM_cons, bind, Except.bind] at h
    cases h1 : s.scan e with
    | error x => rw [h1] at h; cases h
    | ok s1 =>
      rw [h1] at h
      exact (ih h).trans (shape_scan h1)

/-- the tag of a deal is no other event -/
theorem init_tag {e : Event} (h : isGameInit e = true) : e.tag = "INIT".toList := of_decide_eq_true h

theorem init_not_open {e : Event} (h : isGameInit e = true) (p : Fin 4) : playerOpenHand p e = .ok false := by
  unfold playerOpenHand triggeredBy
  rw [init_tag h]; rfl

theorem init_not_discard {e : Event} (h : isGameInit e = true) (p : Fin 4) : playerDiscard p e = none := by
  unfold playerDiscard
  rw [init_tag h]; revert p; decide

mutual
theorem init_scan? {e : Event} (h : isGameInit e = true) : ∀ s : GState,
    s.scan? e = (shape s).scan? e ∧ ∀ r, s.scan? e = .ok r → r.isSome = true
  | .hand p l => by
    simp only [shape, GState.scan?, handScan, h, if_true, bind, Except.bind, pure, Except.pure]
    cases Event.get e (haiName p) with
    | error x => simp
    | ok v =>
      simp only
      cases intList v with
      | error x => simp
      | ok v => simp
  | .melds p l => by
    simp [shape, GState.scan?, meldScan, h, init_not_open h p, bind, Except.bind, pure, Except.pure]
  | .discards p l => by
    simp [shape, GState.scan?, discardScan, h, init_not_discard h p, bind, Except.bind, pure, Except.pure]
  | .dora l => by
    simp only [shape, GState.scan?, doraScan, h, if_true, bind, Except.bind, pure, Except.pure, true_and]
    cases Event.get e "seed".toList with
    | error x => simp
    | ok v =>
      simp only
      cases intList v with
      | error x => simp
      | ok v =>
        simp only
        cases pyIdx v (-1) <;> simp
  | .invisible f l => by
    simp only [shape, GState.scan?, invisibleScan, h, if_true, bind, Except.bind, pure, Except.pure]
    cases doraScanValue e <;> simp
  | .coll ns ss => by
    simp only [shape, GState.scan?, bind, Except.bind, pure, Except.pure, init_scanAll h ss]
    refine ⟨trivial, ?_⟩
    intro r hr
    cases h2 : GState.scanAll e (shapes ss) <;> rw [h2] at hr <;> cases hr
    rfl
theorem init_scanAll {e : Event} (h : isGameInit e = true) : ∀ ss : List GState,
    GState.scanAll e ss = GState.scanAll e (shapes ss)
  | [] => rfl
  | s :: ss => by
    have h1 := init_scan? h s
    simp only [GState.scanAll, shapes, bind, Except.bind, pure, Except.pure, init_scanAll h ss]
    rw [← h1.1]
    cases h2 : s.scan? e with
    | error x => rfl
    | ok r =>
      have := h1.2 r h2
      cases r with
      | none => cases this
      | some r => rfl
end

theorem init_scan {e : Event} (h : isGameInit e = true) {s t : GState} (hs : shape s = shape t) :
    s.scan e = t.scan e := by
  have h1 := init_scan? h s
  have h2 := init_scan? h t
  have h3 : s.scan? e = t.scan? e := by rw [h1.1, h2.1, hs]
  unfold GState.scan
  rw [← h3]
  cases h4 : s.scan? e with
  | error x => rfl
  | ok r =>
    have := h1.2 r h4
    cases r with
    | none => cases this
    | some r => rfl

/-! ### moves -/

theorem ownTiles_iff (q : Fin 4) (c : Nat) (t : Int) : t ∈ ownTiles q c ↔ IsOwnTile q c t := by
  unfold ownTiles IsOwnTile
  cases meldOf q.val c <;> simp

theorem mem_setInsert {α : Type} [DecidableEq α] (l : List α) (x y : α) : y ∈ setInsert l x ↔ y ∈ l ∨ y = x := by
  unfold setInsert
  split
  · constructor
    · exact Or.inl
    · rintro (h | rfl) <;> assumption
  · simp

theorem mem_setSub {α : Type} [DecidableEq α] (l ts : List α) (y : α) : y ∈ setSub l ts ↔ y ∈ l ∧ y ∉ ts := by
  simp [setSub]

theorem scan_hand (p : Fin 4) (l : List Int) {m : Move} (hm : LegalFor p m) :
    ∃ l', (GState.hand p l).scan m.event = .ok (.hand p l') ∧
      (∀ t, t ∈ l' ↔ Gains p t m ∨ (t ∈ l ∧ ¬ Loses p t m)) ∧ (l.Nodup → l'.Nodup) := by
  have h := handScan_move p l hm
  unfold GState.scan
  simp only [GState.scan?, h, bind, Except.bind, pure, Except.pure]
  cases m with
  | deal s hs more =>
    refine ⟨_, rfl, ?_, ?_⟩
    · intro t
      simp only [Gains, Loses]
      rw [List.mem_eraseDups]
      by_cases ht : t ∈ hs p <;> simp [ht]
    · intro _; exact nodup_eraseDups _
  | draw q n =>
    by_cases hq : q = p
    · refine ⟨setInsert l n, by simp [hq], ?_, ?_⟩
      · intro t
        rw [mem_setInsert]
        simp only [Gains, Loses, hq, true_and, not_false_eq_true, and_true]
        constructor <;> rintro (h | h) <;> simp [h]
      · intro hn
        unfold setInsert
        split
        · exact hn
        · rename_i hx
          rw [List.nodup_append]
          refine ⟨hn, by simp, ?_⟩
          intro a ha b hb
          simp at hb; subst hb
          rintro rfl; exact hx ha
    · exact ⟨l, by simp [hq], by simp [Gains, Loses, hq], id⟩
  | discard q n =>
    by_cases hq : q = p
    · refine ⟨setSub l [(n : Int)], by simp [hq], ?_, fun hn => hn.filter _⟩
      intro t
      rw [mem_setSub]
      simp only [Gains, Loses, hq, true_and, false_or, List.mem_singleton]
      constructor
      · rintro ⟨a, b⟩; exact ⟨a, fun h => b h.symm⟩
      · rintro ⟨a, b⟩; exact ⟨a, fun h => b h.symm⟩
    · exact ⟨l, by simp [hq], by simp [Gains, Loses, hq], id⟩
  | meld q c =>
    by_cases hq : q = p
    · subst hq
      refine ⟨setSub l (ownTiles q c), by simp, ?_, fun hn => hn.filter _⟩
      intro t
      rw [mem_setSub, ownTiles_iff]
      simp [Gains, Loses]
    · exact ⟨l, by simp [hq], by simp [Gains, Loses, hq], id⟩
  | dora n => exact ⟨l, by simp, by simp [Gains, Loses], id⟩
  | other e => exact ⟨l, by simp, by simp [Gains, Loses], id⟩

theorem scan_hands (p : Fin 4) (l : List Int) (ms : List Move) (hm : ∀ m ∈ ms, LegalFor p m) :
    ∃ l', scanEvery (.hand p l) (ms.map Move.event) = .ok (.hand p l') ∧
      (∀ t, t ∈ l' ↔ Held p t ms ∨ (t ∈ l ∧ ∀ x ∈ ms, ¬ Loses p t x)) ∧ (l.Nodup → l'.Nodup) := by
  induction ms generalizing l with
  | nil =>
    refine ⟨l, rfl, ?_, id⟩
    intro t
    simp [Held]
  | cons m ms ih =>
    obtain ⟨l1, h1, h2, h3⟩ := scan_hand p l (hm m (by simp))
    obtain ⟨l', k1, k2, k3⟩ := ih l1 (fun x hx => hm x (by simp [hx]))
    refine ⟨l', ?_, ?_, fun h => k3 (h3 h)⟩
    · unfold scanEvery at k1 ⊢
      simp only [List.map_cons, List.foldlM_cons, h1, bind, Except.bind]
      exact k1
    · intro t
      rw [k2, h2]
      constructor
      · rintro (⟨pre, x, post, rfl, hg, hl⟩ | ⟨hg | ⟨ht, hnl⟩, hrest⟩)
        · exact Or.inl ⟨m :: pre, x, post, rfl, hg, hl⟩
        · exact Or.inl ⟨[], m, ms, rfl, hg, hrest⟩
        · refine Or.inr ⟨ht, ?_⟩
          intro x hx
          rcases List.mem_cons.1 hx with rfl | hx
          · exact hnl
          · exact hrest x hx
      · rintro (⟨pre, x, post, he, hg, hl⟩ | ⟨ht, hall⟩)
        · cases pre with
          | nil =>
            simp only [List.nil_append, List.cons.injEq] at he
            obtain ⟨rfl, rfl⟩ := he
            exact Or.inr ⟨Or.inl hg, hl⟩
          | cons y pre =>
            simp only [List.cons_append, List.cons.injEq] at he
            obtain ⟨rfl, rfl⟩ := he
            exact Or.inl ⟨pre, x, post, rfl, hg, hl⟩
        · exact Or.inr ⟨Or.inr ⟨ht, hall m (by simp)⟩, fun x hx => hall x (by simp [hx])⟩

theorem length_setSub {l ts : List Int} (hl : l.Nodup) (hts : ts.Nodup) (hsub : ∀ t ∈ ts, t ∈ l) :
    (setSub l ts).length + ts.length = l.length := by
  have hp : (l.filter (fun y => decide (y ∈ ts))).Perm ts := by
    rw [List.perm_ext_iff_of_nodup (hl.filter _) hts]
    intro a
    simp only [List.mem_filter, decide_eq_true_eq]
    exact ⟨fun h => h.2, fun h => ⟨hsub a h, h⟩⟩
  have h2 := (List.filter_append_perm (fun y => decide (y ∈ ts)) l).length_eq
  rw [List.length_append, hp.length_eq] at h2
  unfold setSub
  have : (l.filter (fun y => decide (y ∉ ts))) = l.filter (fun x => !decide (x ∈ ts)) := by
    apply List.filter_congr; intro x _; simp
  rw [this]; omega

/-- scanning one consistent move changes the size as expected -/
theorem scan_hand_size (p : Fin 4) (l : List Int) (hl : l.Nodup) {m : Move} (hm : LegalMove m) (hd : m.isDeal = false)
    (h1 : ∀ n : Nat, m = .draw p n → (n : Int) ∉ l) (h2 : ∀ n : Nat, m = .discard p n → (n : Int) ∈ l)
    (h3 : ∀ c t, m = .meld p c → IsOwnTile p c t → t ∈ l) (l' : List Int)
    (hs : (GState.hand p l).scan m.event = .ok (.hand p l')) : (l'.length : Int) = l.length + handChange p m := by
  have h := handScan_move p l (legalFor_of_play p hm hd)
  unfold GState.scan at hs
  simp only [GState.scan?, h, bind, Except.bind, pure, Except.pure] at hs
  cases m with
  | deal s hh more => cases hd
  | draw q n =>
    by_cases hq : q = p
    · subst hq
      have := h1 n rfl
      simp [setInsert, this] at hs
      subst hs
      simp [handChange]
    · simp [hq] at hs; subst hs; simp [handChange, hq]
  | discard q n =>
    by_cases hq : q = p
    · subst hq
      have hn := h2 n rfl
      simp at hs
      subst hs
      have := length_setSub (ts := [(n : Int)]) hl (by simp) (by simpa using hn)
      simp [handChange] at this ⊢
      omega
    · simp [hq] at hs; subst hs; simp [handChange, hq]
  | meld q c =>
    by_cases hq : q = p
    · subst hq
      obtain ⟨x, hx⟩ := hm
      simp at hs
      subst hs
      have e : ownTiles q c = x.selfTiles := by unfold ownTiles; rw [hx]
      have nd : x.selfTiles.Nodup := (List.nodup_append.1 (Verif.Props.C28_shape _ _ _ hx).1.distinct).1
      have := length_setSub (ts := x.selfTiles) hl nd (fun t ht => h3 c t rfl ⟨x, hx, ht⟩)
      simp [handChange, hx, e] at this ⊢
      omega
    · simp [hq] at hs; subst hs; simp [handChange, hq]
  | dora n => simp at hs; subst hs; simp [handChange]
  | other e => simp at hs; subst hs; simp [handChange]

end Verif.Proofs
