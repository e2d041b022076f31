import Verif.Proofs.StateFold

namespace Verif.Proofs
open Verif.Py Verif.Model Verif.Spec

theorem scanEvery_cons (s : GState) (e : Event) (es : List Event) :
    scanEvery s (e :: es) = (s.scan e).bind (fun s' => scanEvery s' es) := by
  unfold scanEvery
  rw [List.foldlM_cons]
  rfl

/-! ### invisible tiles -/

theorem scan_invisible (f : Bool) (l : List InvElem) {m : Move} (hm : LegalMove m) (hd : m.isDeal = false) :
    ∃ l', (GState.invisible f l).scan m.event = .ok (.invisible f l') ∧
      (∀ n, InvElem.num n ∈ l' ↔ InvElem.num n ∈ l ∧ ¬ ShowsButZero n m) ∧
      (∀ a b c, InvElem.tup a b c ∈ l' ↔ InvElem.tup a b c ∈ l) := by
  have h := invisibleScan_move f l hm
  unfold GState.scan
  simp only [GState.scan?, h, bind, Except.bind, pure, Except.pure]
  cases m with
  | deal s hs more => cases hd
  | draw q n => exact ⟨l, by simp, by simp [ShowsButZero], by simp⟩
  | discard q n =>
    by_cases h0 : n = 0
    · exact ⟨l, by simp [h0], by simp [ShowsButZero, h0], by simp⟩
    · refine ⟨setSub l [.num n], by simp [h0], ?_, by simp [mem_setSub]⟩
      intro k
      simp only [mem_setSub, ShowsButZero, List.mem_singleton, InvElem.num.injEq]
      constructor
      · rintro ⟨a, b⟩; exact ⟨a, fun hh => b hh.1.symm⟩
      · rintro ⟨a, b⟩; exact ⟨a, fun hh => b ⟨hh.symm, h0⟩⟩
  | meld q c =>
    refine ⟨setSub l ((ownTiles q c).map InvElem.num), by simp, ?_, by simp [mem_setSub]⟩
    intro k
    simp [mem_setSub, ShowsButZero, ← ownTiles_iff]
  | dora n =>
    refine ⟨setSub l [.num n], by simp, ?_, by simp [mem_setSub]⟩
    intro k
    simp only [mem_setSub, ShowsButZero, List.mem_singleton, InvElem.num.injEq]
    constructor
    · rintro ⟨a, b⟩; exact ⟨a, fun hh => b hh.symm⟩
    · rintro ⟨a, b⟩; exact ⟨a, fun hh => b hh.symm⟩
  | other e => exact ⟨l, by simp, by simp [ShowsButZero], by simp⟩

theorem scan_invisibles (f : Bool) (l : List InvElem) (ms : List Move) (hm : ∀ m ∈ ms, LegalMove m ∧ m.isDeal = false) :
    ∃ l', scanEvery (.invisible f l) (ms.map Move.event) = .ok (.invisible f l') ∧
      (∀ n, InvElem.num n ∈ l' ↔ InvElem.num n ∈ l ∧ ∀ m ∈ ms, ¬ ShowsButZero n m) ∧
      (∀ a b c, InvElem.tup a b c ∈ l' ↔ InvElem.tup a b c ∈ l) := by
  induction ms generalizing l with
  | nil => exact ⟨l, rfl, by simp, by simp⟩
  | cons m ms ih =>
    obtain ⟨l1, h1, h2, h3⟩ := scan_invisible f l (hm m (by simp)).1 (hm m (by simp)).2
    obtain ⟨l', k1, k2, k3⟩ := ih l1 (fun x hx => hm x (by simp [hx]))
    refine ⟨l', ?_, ?_, ?_⟩
    · rw [List.map_cons, scanEvery_cons, h1]; exact k1
    · intro n
      rw [k2, h2]
      simp only [List.mem_cons, forall_eq_or_imp, and_assoc]
    · intro a b c
      rw [k3, h3]

/-! ### discards and dora indicators -/

theorem scan_discards (p : Fin 4) (l : List Int) (ms : List Move) (hm : ∀ m ∈ ms, LegalMove m ∧ m.isDeal = false) :
    scanEvery (.discards p l) (ms.map Move.event) = .ok (.discards p (l ++ discardsOf p ms)) := by
  induction ms generalizing l with
  | nil => simp [scanEvery, discardsOf]; rfl
  | cons m ms ih =>
    have h := discardScan_move p l (hm m (by simp)).1
    have ih := fun l => ih l (fun x hx => hm x (by simp [hx]))
    have hd := (hm m (by simp)).2
    rw [List.map_cons, scanEvery_cons]
    unfold GState.scan
    simp only [GState.scan?, h, bind, Except.bind, pure, Except.pure]
    cases m with
    | deal s hs more => cases hd
    | discard q n =>
      by_cases hq : q = p
      · simp [hq, ih, discardsOf]
      · simp [hq, ih, discardsOf]
    | _ => simp [ih, discardsOf]

theorem scan_doras (l : List Int) (ms : List Move) (hm : ∀ m ∈ ms, LegalMove m ∧ m.isDeal = false) :
    scanEvery (.dora l) (ms.map Move.event) = .ok (.dora (l ++ dorasOf ms)) := by
  induction ms generalizing l with
  | nil => simp [scanEvery, dorasOf]; rfl
  | cons m ms ih =>
    have h := doraScan_move l (hm m (by simp)).1
    have ih := fun l => ih l (fun x hx => hm x (by simp [hx]))
    have hd := (hm m (by simp)).2
    rw [List.map_cons, scanEvery_cons]
    unfold GState.scan
    simp only [GState.scan?, h, bind, Except.bind, pure, Except.pure]
    cases m with
    | deal s hs more => cases hd
    | _ => simp [ih, dorasOf]

/-! ### melds -/

/-- a pon with at least one real own tile, all of one kind -/
def PonOk (m : Meld) : Prop :=
  m.cls = .triplet → ∃ k : Int, 0 ≤ k ∧ k < 34 ∧ m.selfTiles ≠ [] ∧ ∀ t ∈ m.selfTiles, t / 4 = k

/-- an added kan with one real tile -/
def AddOk (m : Meld) : Prop := m.cls = .addedKan → ∃ t : Int, 0 ≤ t ∧ t < 136 ∧ m.selfTiles = [t]

theorem decoded_ok {who v : Int} {m : Meld} (h : meldOf who v = .ok m) :
    PonOk m ∧ AddOk m ∧ m.cls ≠ .kanFromTriplet := by
  obtain ⟨sh, t, _, ht⟩ := Verif.Props.C28_shape _ _ _ h
  refine ⟨?_, ?_, ?_⟩
  · intro hc
    obtain ⟨k, hk, hall⟩ := sh.oneKind (Or.inl hc)
    have hs := sh.sizes
    rw [hc] at hs
    refine ⟨k, hk.1, hk.2, ?_, fun t ht => hall t (by simp [ht])⟩
    intro h0
    have := hs.1
    rw [h0] at this; simp at this
  · intro hc
    have hs := sh.sizes
    have hr := sh.real (by rw [hc]; decide)
    rw [hc] at hs
    obtain ⟨t, ht⟩ := List.length_eq_one_iff.1 hs.1
    have := hr t (by simp [ht])
    exact ⟨t, this.1, this.2, ht⟩
  · intro hc; rw [hc] at ht; cases ht

theorem isTriplet_eq {item added : Meld} (hi : PonOk item) (ht : item.cls = .triplet) (ha : AddOk added)
    (hc : added.cls = .addedKan) : isTripletOfAddedKan item added = .ok (sameKind item added) := by
  obtain ⟨k, k0, k1, hne, hk⟩ := hi ht
  obtain ⟨t, t0, t1, hs⟩ := ha hc
  unfold isTripletOfAddedKan
  cases hi' : item.selfTiles with
  | nil => exact absurd hi' hne
  | cons u us =>
    have hu : u / 4 = k := hk u (by simp [hi'])
    have p1 : pyIdx [t] 0 = .ok t := rfl
    have p2 : pyIdx (u :: us) 0 = .ok u := rfl
    obtain ⟨a, a1, _⟩ := Verif.Props.C04_from_tenhou t.toNat (by omega)
    obtain ⟨b, b1, _⟩ := Verif.Props.C04_from_tenhou u.toNat (by omega)
    have hbl := Verif.Props.C04_blocks t.toNat u.toNat (by omega) (by omega) a b a1 b1
    have e1 : ((t.toNat : Nat) : Int) = t := by omega
    have e2 : ((u.toNat : Nat) : Int) = u := by omega
    rw [e1] at a1
    rw [e2] at b1
    simp only [hs, p1, p2, a1, b1, bind, Except.bind, pure, Except.pure]
    congr 1
    rw [Bool.eq_iff_iff, hbl]
    unfold sameKind
    rw [hs, hi']
    simp only [List.all_cons, List.all_nil, Bool.and_true, Bool.and_eq_true, decide_eq_true_eq, List.all_eq_true]
    constructor
    · intro h
      refine ⟨by omega, ?_⟩
      intro x hx
      have := hk x (by simp [hi', hx])
      omega
    · rintro ⟨h, _⟩; omega

theorem upgradeTriplets_eq {added : Meld} (ha : AddOk added) (hc : added.cls = .addedKan) (l : List Meld)
    (hl : ∀ m ∈ l, PonOk m) :
    upgradeTriplets added l = .ok (l.map (fun m => if m.cls = .triplet ∧ sameKind m added then kanOf m added else m)) := by
  unfold upgradeTriplets
  apply mapM_ok
  intro x hx
  by_cases h : x.cls = .triplet
  · simp only [h, if_true, true_and, isTriplet_eq (hl x hx) h ha hc, bind, Except.bind, pure, Except.pure]
    split <;> rfl
  · simp [h, pure, Except.pure]

theorem upgraded_not_added {m x : Meld} {ds : List Meld} (hx : x.cls ≠ .addedKan) :
    upgraded m (x :: ds) = upgraded m ds := by
  unfold upgraded
  rw [List.find?_cons]
  simp [hx]

theorem upgraded_added {m x : Meld} {ds : List Meld} (hx : x.cls = .addedKan) :
    upgraded (if m.cls = .triplet ∧ sameKind m x then kanOf m x else m) ds = upgraded m (x :: ds) := by
  unfold upgraded
  rw [List.find?_cons]
  by_cases h : m.cls = .triplet
  · by_cases hs : sameKind m x = true
    · simp [h, hs, hx, kanOf]
    · simp [h, hs, hx]
  · simp [h]

theorem scan_melds (p : Fin 4) (l : List Meld) (hl : ∀ m ∈ l, PonOk m) (ms : List Move)
    (hm : ∀ m ∈ ms, LegalMove m ∧ m.isDeal = false) :
    scanEvery (.melds p l) (ms.map Move.event) =
      .ok (.melds p (l.map (fun m => upgraded m (meldsOf p ms)) ++ finalMelds (meldsOf p ms))) := by
  induction ms generalizing l with
  | nil =>
    have : (fun m => upgraded m []) = (id : Meld → Meld) := by
      funext m; unfold upgraded; simp
    simp [scanEvery, meldsOf, finalMelds, this]; rfl
  | cons m ms ih =>
    have h := meldScan_move p l (hm m (by simp)).1
    have ih := fun l hl => ih l hl (fun x hx => hm x (by simp [hx]))
    have hd := (hm m (by simp)).2
    rw [List.map_cons, scanEvery_cons]
    unfold GState.scan
    simp only [GState.scan?, h, bind, Except.bind, pure, Except.pure]
    cases m with
    | deal s hs more => cases hd
    | meld q c =>
      by_cases hq : q = p
      · subst hq
        obtain ⟨x, hx⟩ := (hm (Move.meld q c) (by simp)).1
        obtain ⟨o1, o2, o3⟩ := decoded_ok hx
        simp only [hx, if_true, meldsOf]
        by_cases hc : x.cls = .addedKan
        · rw [if_pos hc, upgradeTriplets_eq o2 hc l hl]
          simp only [Except.map, Option.map_some, Option.getD_some, Except.bind]
          rw [ih]
          · simp only [finalMelds, hc, if_true, List.map_map]
            congr 3
            apply List.map_congr_left
            intro y _
            exact upgraded_added hc
          · intro y hy
            obtain ⟨z, hz, rfl⟩ := List.mem_map.1 hy
            split
            · intro hk; simp [kanOf] at hk
            · exact hl z hz
        · rw [if_neg hc]
          simp only [Option.map_some, Option.getD_some, Except.bind]
          rw [ih]
          · simp only [finalMelds, hc, if_false, List.map_append, List.map_cons, List.map_nil, List.append_assoc,
              List.singleton_append]
            congr 3
            apply List.map_congr_left
            intro y _
            rw [upgraded_not_added hc]
          · intro y hy
            rcases List.mem_append.1 hy with h | h
            · exact hl y h
            · simp at h; subst h; exact o1
      · simp [hq, meldsOf, ih l hl, Except.bind]
    | _ => simp [ih l hl, meldsOf, Except.bind]

end Verif.Proofs
