import Verif.Proofs.CheckerReport
import Verif.Proofs.PlainTiles
import Verif.Proofs.BruteForce
import Verif.Props.Waiting
import Mathlib.Data.List.Perm.Subperm

/-! The analyses behind a report. -/
namespace Verif.Proofs
open Verif.Py Verif.Model Verif.Spec Verif.Props

/-- the tile of a number -/
def tileOf (n : Int) : Tile := (tileFromTenhou n).toOption.getD default

theorem tileOf_spec {n : Int} (h : 0 ≤ n ∧ n < 136) :
    tileFromTenhou n = .ok (tileOf n) ∧ RealTile (tileOf n) ∧ (∀ k, (tileOf n).view = k ↔ CopyOf n k) ∧
    ((tileOf n).aka = true ↔ n = 16 ∨ n = 52 ∨ n = 88) := by
  obtain ⟨t, h1, h2, h3, h4, _⟩ := C04_from_tenhou n.toNat (by omega)
  have hn : ((n.toNat : Nat) : Int) = n := by omega
  rw [hn] at h1
  have ht : tileOf n = t := by unfold tileOf; rw [h1]; rfl
  rw [ht]
  refine ⟨h1, h2, fun k => ?_, by rw [h4]; omega⟩
  unfold CopyOf
  have : (n / 4).toNat = n.toNat / 4 := by omega
  rw [this, h3]
  simp [h]

theorem tiles_of_hand {l : List Int} (h : ∀ n ∈ l, 0 ≤ n ∧ n < 136) :
    l.mapM tileFromTenhou = .ok (l.map tileOf) := mapM_ok _ _ _ (fun n hn => (tileOf_spec (h n hn)).1)

theorem real_tiles {l : List Int} (h : ∀ n ∈ l, 0 ≤ n ∧ n < 136) : ∀ t ∈ l.map tileOf, RealTile t := by
  intro t ht
  obtain ⟨n, hn, rfl⟩ := List.mem_map.1 ht
  exact (tileOf_spec (h n hn)).2.1

theorem plain_tiles {l : List Int} (h : ∀ n ∈ l, 0 ≤ n ∧ n < 136) (hr : NoRedFives l) :
    ∀ t ∈ l.map tileOf, t.aka = false := by
  intro t ht
  obtain ⟨n, hn, rfl⟩ := List.mem_map.1 ht
  have := (tileOf_spec (h n hn)).2.2.2
  have := hr n hn
  grind

/-- a tile that is plain or one of the hand -/
def FromHand (hand : List Int) (t : Tile) : Prop := t.aka = true → ∃ n ∈ hand, tileOf n = t

theorem fromHand_plain {hand : List Int} {t : Tile} (h : t.aka = false) : FromHand hand t := by
  intro h'
  rw [h] at h'
  cases h'

theorem FromHand.plain {hand : List Int} (hn : ∀ n ∈ hand, 0 ≤ n ∧ n < 136) (hr : NoRedFives hand) {t : Tile} (h : FromHand hand t) :
    t.aka = false := by
  cases ha : t.aka with
  | false => rfl
  | true =>
    obtain ⟨n, hm, rfl⟩ := h ha
    rw [plain_tiles hn hr _ (List.mem_map.2 ⟨n, hm, rfl⟩)] at ha
    cases ha

theorem red_kind {n : Int} (h : 0 ≤ n ∧ n < 136) (ha : (tileOf n).aka = true) : IsRed n (tileOf n).view := by
  unfold IsRed
  rcases (tileOf_spec h).2.2.2.1 ha with rfl | rfl | rfl
  · exact .inl ⟨rfl, rfl⟩
  · exact .inr (.inl ⟨rfl, rfl⟩)
  · exact .inr (.inr ⟨rfl, rfl⟩)

theorem FromHand.red {hand : List Int} (hn : ∀ n ∈ hand, 0 ≤ n ∧ n < 136) {t : Tile} (h : FromHand hand t) (ha : t.aka = true) :
    RedIn hand t.view := by
  obtain ⟨n, h1, rfl⟩ := h ha
  exact ⟨n, h1, red_kind (hn n h1) ha⟩

theorem plain_notRed {hand : List Int} (hn : ∀ n ∈ hand, 0 ≤ n ∧ n < 136) {l : List Tile} (h : ∀ t ∈ l, FromHand hand t)
    (hu : ∀ u ∈ l.map Tile.view, ¬ RedIn hand u) : ∀ t ∈ l, t.aka = false := by
  intro t ht
  cases ha : t.aka with
  | false => rfl
  | true => exact absurd ((h t ht).red hn ha) (hu _ (List.mem_map_of_mem ht))

theorem content_tiles {l : List Int} (h : ∀ n ∈ l, 0 ≤ n ∧ n < 136) :
    content (Counter.ofIter (l.map tileOf) : TileSet) = heldKinds l := by
  funext k
  show Counter.get _ _ = _
  rw [get_ofIter']
  unfold heldKinds
  congr 1
  induction l with
  | nil => rfl
  | cons n l ih =>
    have hn := (tileOf_spec (h n (by simp))).2.2.1 k
    have ih := ih (fun x hx => h x (by simp [hx]))
    rw [List.map_cons, List.map_cons, List.count_cons, List.filter_cons, ih]
    by_cases hk : CopyOf n k
    · simp [hn.2 hk, hk]
    · have : (tileOf n).view ≠ k := fun e => hk (hn.1 e)
      simp [this, hk]

theorem heldKinds_perm {l l' : List Int} (h : l.Perm l') : heldKinds l = heldKinds l' := by
  funext k
  unfold heldKinds
  rw [(h.filter _).length_eq]

theorem keysIn_ofIter {S : Tile → Prop} {l : List Tile} (h : ∀ t ∈ l, S t) : KeysIn S (Counter.ofIter l) := by
  unfold Counter.ofIter
  have gen : ∀ (l : List Tile) (c : TileSet), (∀ t ∈ l, S t) → KeysIn S c →
      KeysIn S (l.foldl (fun c a => Counter.set c a (Counter.get c (view a) + 1)) c) := by
    intro l
    induction l with
    | nil => intro c _ h; exact h
    | cons a l ih =>
      intro c hl hc
      rw [List.foldl_cons]
      exact ih _ (fun t ht => hl t (by simp [ht])) (keysIn_set hc (hl a (by simp)) _)
  exact gen l [] h (by intro e he; simp at he)

theorem heldKinds_nonneg (l : List Int) (k : Kind) : 0 ≤ heldKinds l k := by unfold heldKinds; omega

theorem heldKinds_four {l : List Int} (hl : NumberHand l) : AtMostFour (heldKinds l) := by
  intro k
  unfold heldKinds
  have hnd := hl.1.filter (fun n => decide (CopyOf n k))
  by_cases hj : k ∉ allKinds
  · have : l.filter (fun n => decide (CopyOf n k)) = [] := by
      rw [List.filter_eq_nil_iff]
      intro n _ hc
      have hc : CopyOf n k := by simpa using hc
      exact hj (List.mem_of_getElem? hc.2.2)
    rw [this]; simp
  · obtain ⟨j, hjk⟩ := List.mem_iff_getElem?.1 (Classical.not_not.1 hj)
    have hsub : (l.filter (fun n => decide (CopyOf n k))) ⊆ [4 * (j : Int), 4 * (j : Int) + 1, 4 * (j : Int) + 2, 4 * (j : Int) + 3] := by
      intro n hn
      have hc : CopyOf n k := by simpa using (List.mem_filter.1 hn).2
      have hlt : (n / 4).toNat < allKinds.length := (List.getElem?_eq_some_iff.1 hc.2.2).1
      have : (n / 4).toNat = j := by
        have e : allKinds[(n / 4).toNat]? = allKinds[j]? := by rw [hc.2.2]; exact hjk.symm
        exact (List.getElem?_inj hlt nodup_allKinds).1 e
      have h0 := hc.1
      simp only [List.mem_cons, List.not_mem_nil, or_false]
      omega
    have := (hnd.subperm hsub).length_le
    simp only [List.length_cons, List.length_nil] at this
    omega

theorem heldKinds_sum {l : List Int} (h : ∀ n ∈ l, 0 ≤ n ∧ n < 136) : sumK (heldKinds l) = l.length := by
  rw [← content_tiles h]
  have := total_ofIter_real (real_tiles h)
  rw [List.length_map] at this
  rw [← this]
  apply sumK_congr
  intro k _
  exact get_ofIter' _ k

/-! ### one win type -/

/-- the reasoning item of one entry of the batch -/
def itemOf (inv : List InvElem) (e : Tile × Int × List Tile) : RItem :=
  ⟨e.1, e.2.1, e.2.2, (usefulCount inv e.2.2).toOption.getD 0⟩

theorem usefulCount_getD {inv : List InvElem} {us : List Tile} (h : ∀ t ∈ us, RealTile t) :
    usefulCount inv us = .ok ((usefulCount inv us).toOption.getD 0) := by
  obtain ⟨c, hc⟩ := usefulCount_returns inv us h
  rw [hc]; rfl

theorem convert_ok {inv : List InvElem} {t : Tile} {us : List Tile} {n : Int} (h : ∀ t ∈ us, RealTile t) :
    convertToReasoning inv t us n = .ok (itemOf inv (t, n, us)) := by
  unfold convertToReasoning itemOf
  rw [usefulCount_getD h]
  rfl

theorem oneWin_eq {inv : List InvElem} {set : TileSet} {w : Pattern} (hh : HandOK set)
    {b : List (Tile × Int × List Tile)} (hb : heurBatch 0 w true set = .ok b) :
    oneWinReasoning inv set w = .ok (b.map (itemOf inv)) := by
  unfold oneWinReasoning
  rw [hb]
  obtain ⟨_, _, _, _, h4, _⟩ := heurBatch_spec hh hb
  exact mapM_ok _ _ _ (fun e he => convert_ok (h4 e he).2.2.2)

theorem oneWin_inv {inv : List InvElem} {set : TileSet} {w : Pattern} (hh : HandOK set) {l : List RItem}
    (h : oneWinReasoning inv set w = .ok l) :
    ∃ b, heurBatch 0 w true set = .ok b ∧ l = b.map (itemOf inv) := by
  cases hb : heurBatch 0 w true set with
  | error e => unfold oneWinReasoning at h; rw [hb] at h; cases h
  | ok b =>
    rw [oneWin_eq hh hb] at h
    cases h
    exact ⟨b, rfl, rfl⟩

/-- items with real tiles and the right counts -/
def ItemOK (inv : List InvElem) (x : RItem) : Prop :=
  RealTile x.discard ∧ (∀ t ∈ x.useful, RealTile t) ∧ usefulCount inv x.useful = .ok x.count

theorem oneWin_spec {inv : List InvElem} {set : TileSet} {w : Pattern} (hh : HandOK set) {l : List RItem}
    (h : oneWinReasoning inv set w = .ok l) :
    DiscardAnalyses w (content set) l ∧ (∀ x ∈ l, ItemOK inv x) ∧
    (∀ S : Tile → Prop, (∀ t, t.aka = false → S t) → KeysIn S set → ∀ x ∈ l, S x.discard ∧ ∀ t ∈ x.useful, S t) := by
  obtain ⟨b, hb, rfl⟩ := oneWin_inv hh h
  obtain ⟨_, _, _, _, h4, _⟩ := heurBatch_spec hh hb
  refine ⟨?_, ?_, ?_⟩
  · obtain ⟨n, c1, c2, c3, c4⟩ := C18_batch w set hh 0 b hb
    refine ⟨n, c1, ?_, ?_, ?_⟩
    · rw [List.map_map]; exact c2
    · intro k; rw [List.map_map]; exact c3 k
    · intro x hx
      obtain ⟨e, he, rfl⟩ := List.mem_map.1 hx
      exact c4 e he
  · intro x hx
    obtain ⟨e, he, rfl⟩ := List.mem_map.1 hx
    exact ⟨(h4 e he).2.1, (h4 e he).2.2.2, usefulCount_getD (h4 e he).2.2.2⟩
  · intro S hS hk x hx
    obtain ⟨e, he, rfl⟩ := List.mem_map.1 hx
    exact heurBatch_keys (S := S) hS hh hk hb e he

theorem oneWin_ok {inv : List InvElem} {set : TileSet} {w : Pattern} (hh : HandOK set) {n : Int}
    (hn : IsStep true w (content set) n) (hle : n + 1 ≤ Counter.total set) :
    ∃ l, oneWinReasoning inv set w = .ok l := by
  obtain ⟨b, hb⟩ := heurBatch_ok (s := 0) hh hn hle
  exact ⟨_, oneWin_eq hh hb⟩

/-! ### merging -/

theorem merge_one {inv : List InvElem} {x : RItem} (hx : usefulCount inv x.useful = .ok x.count) :
    reasoningMerge inv [x] = .ok x := by
  unfold reasoningMerge
  simp only [List.foldl_nil, hx]
  rfl

theorem merge_ones {inv : List InvElem} {l : List RItem} (hl : ∀ x ∈ l, ItemOK inv x) :
    (zipLists [l]).mapM (reasoningMerge inv) = .ok l := by
  unfold zipLists
  have := mapM_ok (reasoningMerge inv) (fun x : List RItem => (x.head?).getD ⟨default, 0, [], 0⟩) (l.map (fun x => [x]))
    (by
      intro y hy
      obtain ⟨x, hx, rfl⟩ := List.mem_map.1 hy
      exact merge_one (hl x hx).2.2)
  rw [this, List.map_map]
  congr 1
  exact (List.map_congr_left (fun x _ => rfl)).trans (List.map_id l)

theorem winReasonings_one {inv : List InvElem} {set : TileSet} {w : Pattern} {lists : List (List RItem)} :
    winReasonings inv set [w] = .ok lists ↔ ∃ l, oneWinReasoning inv set w = .ok l ∧ lists = [l] := by
  unfold winReasonings
  cases h : oneWinReasoning inv set w with
  | error e => simp [bind, Except.bind, h]
  | ok l => simp [bind, Except.bind, pure, Except.pure, h, eq_comm (a := lists)]

theorem winReasonings_two {inv : List InvElem} {set : TileSet} {v w : Pattern} {lists : List (List RItem)} :
    winReasonings inv set [v, w] = .ok lists ↔
      ∃ a b, oneWinReasoning inv set v = .ok a ∧ oneWinReasoning inv (reSort set) w = .ok b ∧ lists = [a, b] := by
  unfold winReasonings
  cases h : oneWinReasoning inv set v with
  | error e => simp [bind, Except.bind, h]
  | ok l =>
    cases h2 : oneWinReasoning inv (reSort set) w with
    | error e => simp [bind, Except.bind, h, h2]
    | ok l2 => simp [bind, Except.bind, pure, Except.pure, h, h2, eq_comm (a := lists)]

theorem zipLists_two (a b : List RItem) : zipLists [a, b] = (a.zip b).map (fun p => [p.1, p.2]) := by
  unfold zipLists zipLists
  rw [List.zip_map_right, List.map_map]
  rfl

/-! ### the hand of a report -/

/-- what a successful analysis worked on -/
theorem analyse_hand {iter : List Int → List Int} (hi : ∀ l, (iter l).Perm l) {hand : List Int}
    (hn : ∀ n ∈ hand, 0 ≤ n ∧ n < 136) :
    (iter hand).mapM tileFromTenhou = .ok ((iter hand).map tileOf) ∧
    HandOK (Counter.ofIter ((iter hand).map tileOf)) ∧
    content (Counter.ofIter ((iter hand).map tileOf) : TileSet) = heldKinds hand ∧
    KeysIn (FromHand hand) (Counter.ofIter ((iter hand).map tileOf)) ∧
    Counter.total (Counter.ofIter ((iter hand).map tileOf) : TileSet) = hand.length := by
  have hn' : ∀ n ∈ iter hand, 0 ≤ n ∧ n < 136 := fun n h => hn n ((hi hand).mem_iff.1 h)
  have hok : HandOK (Counter.ofIter ((iter hand).map tileOf)) := HandOK_ofIter (real_tiles hn')
  have hc : content (Counter.ofIter ((iter hand).map tileOf) : TileSet) = heldKinds hand := by
    rw [content_tiles hn', heldKinds_perm (hi hand)]
  refine ⟨tiles_of_hand hn', hok, hc, ?_, ?_⟩
  · refine keysIn_ofIter (fun t ht _ => ?_)
    obtain ⟨n, hm, e⟩ := List.mem_map.1 ht
    exact ⟨n, (hi hand).mem_iff.1 hm, e⟩
  · rw [total_eq_sumK hok.1 hok.2.1]
    show sumK (content _) = _
    rw [hc, heldKinds_sum hn]

/-- no discard keeps the step exactly when the hand, of as many tiles as the win, wins -/
theorem analyses_nil_iff {w : Pattern} {h : Kind → Int} (h0 : ∀ k, 0 ≤ h k) (hv : ∀ k, ¬ ValidKind k → h k = 0)
    (h4 : AtMostFour h) (hs : sumK h = w.needCount) {l : List RItem} (hl : DiscardAnalyses w h l) :
    l = [] ↔ Wins w h := by
  obtain ⟨n, h1, _, h3, _⟩ := hl
  constructor
  · intro hnil
    apply Classical.byContradiction
    intro hw
    have hne : n ≠ -1 := by
      intro e; subst e
      exact hw (wins_of_neg_one h0 h1)
    have hge := h1.ge
    obtain ⟨D, d1, d2, d3⟩ := h1.1
    have hk : ∃ k, ValidKind k ∧ Spec.need D k < h k := by
      apply Classical.byContradiction
      intro hno
      have hle : ∀ k, ValidKind k → h k ≤ Spec.need D k := by
        intro k hk
        apply Int.not_lt.1
        intro hlt
        exact hno ⟨k, hk, hlt⟩
      have e1 : deficit D h = sumK (fun k => Spec.need D k - h k) := by
        unfold deficit
        exact sumK_congr (fun k hk => by have := hle k hk; omega)
      rw [sumK_sub, show sumK (fun k => h k) = w.needCount from hs] at e1
      have e2 : sumK (fun k => Spec.need D k) = w.needCount := d1.needCount.symm
      have e3 : sumK (fun k => h k) = w.needCount := hs
      rw [e2, Int.sub_self] at e1; omega
    obtain ⟨k, hkv, hk⟩ := hk
    have := (h3 k).2 ⟨by have := need_nonneg D k; omega, (isStep_minus_iff h1 hkv).2 ⟨D, d1, d2, d3, hk⟩⟩
    rw [hnil] at this
    simp at this
  · intro hw
    have hn : n = -1 := h1.unique (neg_one_of_wins h0 (fun _ => h4) hw)
    subst hn
    cases l with
    | nil => rfl
    | cons x l =>
      obtain ⟨hp, hm⟩ := (h3 x.discard.view).1 (by simp)
      have hkv : ValidKind x.discard.view := by
        apply Classical.byContradiction
        intro hc
        have := hv _ hc
        omega
      obtain ⟨D, d1, d2, d3, d4⟩ := (isStep_minus_iff h1 hkv).1 hm
      have hle : ∀ k, ValidKind k → Spec.need D k ≤ h k := by
        intro k hk
        have e : deficit D h = 0 := by omega
        have := le_sumK (f := fun k => Max.max 0 (Spec.need D k - h k)) (fun k _ => by omega) hk
        unfold deficit at e
        omega
      have e2 : sumK (fun k => Spec.need D k) = w.needCount := d1.needCount.symm
      have e3 : sumK (fun k => h k) = w.needCount := hs
      have e4 := le_sumK (f := fun k => h k - Spec.need D k) (fun k hk => by have := hle k hk; omega) hkv
      rw [sumK_sub, show sumK (fun k => h k) = w.needCount from hs] at e4
      rw [e2, Int.sub_self] at e4; omega

/-! ### the discard chosen -/

theorem discard_item {inv : List InvElem} {set : TileSet} {tile : Tile} {w : Pattern} {x : RItem} (hh : HandOK set)
    (ht : RealTile tile) (hpos : 0 < content set tile.view) (h : reasoningDiscards inv set tile w = .ok x) :
    x.discard = tile ∧ IsStep true w (minus (content set) tile.view) x.step ∧ (x.useful.map Tile.view).Nodup ∧
    (∀ u, u ∈ x.useful.map Tile.view ↔ UsefulKind w (minus (content set) tile.view) u) ∧ ItemOK inv x ∧
    (∀ S : Tile → Prop, (∀ t, t.aka = false → S t) → KeysIn S set → S tile → ∀ t ∈ x.useful, S t) := by
  have hok : HandOK (TileSet.sub set (Counter.ofIter [tile])) := HandOK_sub hh (HandOK_ofIter (by simpa using ht))
  unfold reasoningDiscards at h
  cases hu : heurWaitingUseful 0 w true (TileSet.sub set (Counter.ofIter [tile])) with
  | error e => rw [hu] at h; cases h
  | ok r =>
    rw [hu] at h
    obtain ⟨n, us⟩ := r
    simp only [bind, Except.bind] at h
    obtain ⟨_, _, _, r4, _⟩ := heurWaitingUseful_eq hok hu
    rw [convert_ok r4] at h
    cases h
    obtain ⟨b1, b2, b3⟩ := C17_heuristic_useful w _ hok 0 n us hu
    rw [content_sub_one hh tile hpos] at b1 b3
    refine ⟨rfl, b1, b2, b3, ⟨ht, r4, usefulCount_getD r4⟩, fun S hS hk htp => ?_⟩
    refine heurWaitingUseful_keys (S := S) hS ?_ hu
    unfold TileSet.sub Counter.isub Counter.keepPositive
    exact keysIn_filter (keysIn_subtract hk (keysIn_ofIter (by simpa using htp))) _

theorem unseenOf_congr {inv : List InvElem} {ks ks' : List Kind} (h : ∀ k, k ∈ ks ↔ k ∈ ks') :
    unseenOf inv ks = unseenOf inv ks' := by
  unfold unseenOf
  congr 1
  apply List.filter_congr
  intro x _
  cases x with
  | tup a b c => rfl
  | num n => simp [h]

theorem unseenOf_le (inv : List InvElem) (ks : List Kind) : unseenOf inv ks ≤ inv.length := List.length_filter_le _ _

/-- counts of items with plain tiles -/
theorem count_plain {inv : List InvElem} (hnd : inv.Nodup) (h0 : TileNumbers inv) {x : RItem} (hx : ItemOK inv x)
    (hp : ∀ t ∈ x.useful, t.aka = false) (hu : (x.useful.map Tile.view).Nodup) :
    x.count = unseenOf inv (x.useful.map Tile.view) := by
  have h1 := usefulCount_eq inv hnd h0 x.useful hx.2.1
  rw [hx.2.2] at h1
  have : x.useful.map (fun t => (countedKind t).elim 0 (unseen inv)) = x.useful.map (unseen inv ∘ Tile.view) := by
    apply List.map_congr_left
    intro t ht
    simp [countedKind, hp t ht]
  rw [this, ← List.map_map, unseen_sum inv _ hu] at h1
  injection h1

theorem merge_item {inv : List InvElem} {l : List RItem} {r : RItem} (h : reasoningMerge inv l = .ok r)
    (hl : ∀ x ∈ l, ItemOK inv x) : ItemOK inv r := by
  cases l with
  | nil => cases h
  | cons x l =>
    simp only [reasoningMerge, pyMin_steps, bind, Except.bind] at h
    cases hc : usefulCount inv (l.foldl reduceUseful x).useful with
    | error e => rw [hc] at h; cases h
    | ok c =>
      rw [hc] at h
      simp only [pure, Except.pure, Except.ok.injEq] at h
      subst h
      obtain ⟨_, _, _, h4, _⟩ := fold_reduce l x
      refine ⟨(hl x (by simp)).1, ?_, hc⟩
      intro t ht
      obtain ⟨y, h1, _, h3⟩ := h4 t ht
      exact (hl y h1).2.1 t h3

theorem setSub_nodup {inv l : List InvElem} (h : inv.Nodup) : (setSub inv l).Nodup := h.filter _

theorem setSub_numbers {inv l : List InvElem} (h : TileNumbers inv) : TileNumbers (setSub inv l) :=
  fun n hn => h n (List.mem_filter.1 hn).1

/-- the merged items and their tiles -/
theorem merged_from {iter : List Int → List Int} (hi : ∀ l, (iter l).Perm l) {hand : List Int}
    (hn : ∀ n ∈ hand, 0 ≤ n ∧ n < 136) {inv : List InvElem} {melds : List Meld} {a : Analysis}
    (h : analyse iter hand inv melds = .ok a) :
    ∀ x ∈ a.merged, ItemOK a.invisible x ∧ (x.useful.map Tile.view).Nodup ∧
      (FromHand hand x.discard ∧ ∀ t ∈ x.useful, FromHand hand t) := by
  obtain ⟨tiles, lists, h4, ht, h1, h2, h3, h5, h6⟩ := analyse_inv h
  obtain ⟨t1, t2, t3, t4, _⟩ := analyse_hand hi hn
  rw [t1] at ht
  cases ht
  have hgood : ∀ l ∈ lists, ∀ x ∈ l, ItemOK a.invisible x ∧ (x.useful.map Tile.view).Nodup ∧
      (FromHand hand x.discard ∧ ∀ t ∈ x.useful, FromHand hand t) := by
    rw [h3] at h5
    have one : ∀ (set : TileSet) (w : Pattern) (l : List RItem), HandOK set →
        KeysIn (FromHand hand) set → oneWinReasoning a.invisible set w = .ok l →
        ∀ x ∈ l, ItemOK a.invisible x ∧ (x.useful.map Tile.view).Nodup ∧
          (FromHand hand x.discard ∧ ∀ t ∈ x.useful, FromHand hand t) := by
      intro set w l hs hk hl x hx
      obtain ⟨⟨_, _, _, _, o1⟩, o2, o3⟩ := oneWin_spec hs hl
      exact ⟨o2 x hx, (o1 x hx).2.1, o3 _ (fun _ => fromHand_plain) hk x hx⟩
    by_cases hk : meldCount melds = 0
    · have hw : checkedWins (meldCount melds) = [.normal 1 4, .unique 7 []] := by rw [hk]; rfl
      rw [hw] at h5
      obtain ⟨l1, l2, g1, g2, rfl⟩ := winReasonings_two.1 h5
      intro l hl
      simp only [List.mem_cons, List.not_mem_nil, or_false] at hl
      rcases hl with rfl | rfl
      · exact one _ _ _ t2 t4 g1
      · exact one _ _ _ (HandOK.reSort' t2) (keysIn_reSort t4) g2
    · have hw : checkedWins (meldCount melds) = [.normal 1 (4 - meldCount melds)] := by
        unfold checkedWins; rw [if_neg hk]
      rw [hw] at h5
      obtain ⟨l, g1, rfl⟩ := winReasonings_one.1 h5
      intro l' hl
      simp only [List.mem_cons, List.not_mem_nil, or_false] at hl
      subst hl
      exact one _ _ _ t2 t4 g1
  have hzip : ∀ z ∈ zipLists lists, ∀ x ∈ z, ∃ l ∈ lists, x ∈ l := by
    have gen : ∀ ls : List (List RItem), ∀ z ∈ zipLists ls, ∀ x ∈ z, ∃ l ∈ ls, x ∈ l := by
      intro ls
      induction ls with
      | nil => intro z hz; simp [zipLists] at hz
      | cons l ls ih =>
        cases ls with
        | nil =>
          intro z hz x hx
          simp only [zipLists, List.mem_map] at hz
          obtain ⟨y, hy, rfl⟩ := hz
          simp only [List.mem_cons, List.not_mem_nil, or_false] at hx
          exact ⟨l, by simp, hx ▸ hy⟩
        | cons m ls =>
          intro z hz x hx
          simp only [zipLists, List.mem_map] at hz
          obtain ⟨p, hp, rfl⟩ := hz
          have hp' := List.of_mem_zip hp
          rcases List.mem_cons.1 hx with rfl | hx
          · exact ⟨l, by simp, hp'.1⟩
          · obtain ⟨l', hl', hx'⟩ := ih _ hp'.2 x hx
            exact ⟨l', by simp only [List.mem_cons] at hl' ⊢; exact Or.inr hl', hx'⟩
    exact gen lists
  intro x hx
  obtain ⟨z, hz, hm⟩ := mapM_inv _ h6 x hx
  have hall : ∀ y ∈ z, ItemOK a.invisible y ∧ (y.useful.map Tile.view).Nodup ∧
      (FromHand hand y.discard ∧ ∀ t ∈ y.useful, FromHand hand t) := by
    intro y hy
    obtain ⟨l, hl, hy'⟩ := hzip z hz y hy
    exact hgood l hl y hy'
  refine ⟨merge_item hm (fun y hy => (hall y hy).1), ?_, ?_⟩
  · cases z with
    | nil => cases hm
    | cons y l =>
      simp only [reasoningMerge, pyMin_steps, bind, Except.bind] at hm
      cases hc : usefulCount a.invisible (l.foldl reduceUseful y).useful with
      | error e => rw [hc] at hm; cases hm
      | ok c =>
        rw [hc] at hm
        simp only [pure, Except.pure, Except.ok.injEq] at hm
        subst hm
        exact (fold_reduce l y).2.2.2.2 (fun y hy => (hall y hy).2.1)
  · cases z with
    | nil => cases hm
    | cons y l =>
      simp only [reasoningMerge, pyMin_steps, bind, Except.bind] at hm
      cases hc : usefulCount a.invisible (l.foldl reduceUseful y).useful with
      | error e => rw [hc] at hm; cases hm
      | ok c =>
        rw [hc] at hm
        simp only [pure, Except.pure, Except.ok.injEq] at hm
        subst hm
        refine ⟨(hall y (by simp)).2.2.1, fun t ht => ?_⟩
        obtain ⟨y', q1, _, q3⟩ := (fold_reduce l y).2.2.2.1 t ht
        exact (hall y' q1).2.2.2 t q3

theorem merged_items {iter : List Int → List Int} (hi : ∀ l, (iter l).Perm l) {hand : List Int}
    (hn : ∀ n ∈ hand, 0 ≤ n ∧ n < 136) {inv : List InvElem} {melds : List Meld} {a : Analysis}
    (h : analyse iter hand inv melds = .ok a) :
    ∀ x ∈ a.merged, ItemOK a.invisible x ∧ (x.useful.map Tile.view).Nodup ∧
      (NoRedFives hand → x.discard.aka = false ∧ ∀ t ∈ x.useful, t.aka = false) := by
  intro x hx
  obtain ⟨h1, h2, h3, h4⟩ := merged_from hi hn h x hx
  exact ⟨h1, h2, fun hr => ⟨h3.plain hn hr, fun t ht => (h4 t ht).plain hn hr⟩⟩

/-- the item for the discard the player chose -/
theorem your_choice {iter : List Int → List Int} (hi : ∀ l, (iter l).Perm l) {hand : List Int}
    (hn : ∀ n ∈ hand, 0 ≤ n ∧ n < 136) {inv : List InvElem} {melds : List Meld} {a : Analysis}
    (h : analyse iter hand inv melds = .ok a) {n : Int} (hm : n ∈ hand) {items : List RItem} {your : RItem}
    (hi' : a.wins.mapM (reasoningDiscards a.invisible a.hand (tileOf n)) = .ok items)
    (hy : reasoningMerge a.invisible items = .ok your) :
    your.discard = tileOf n ∧ ItemOK a.invisible your ∧ (your.useful.map Tile.view).Nodup ∧
    (∀ t ∈ your.useful, FromHand hand t) ∧
    (∃ w ∈ checkedWins (meldCount melds), IsStep true w (minus (heldKinds hand) (tileOf n).view) your.step) ∧
    (∀ w ∈ checkedWins (meldCount melds), ∀ m, IsStep true w (minus (heldKinds hand) (tileOf n).view) m → your.step ≤ m) ∧
    ∀ u, u ∈ your.useful.map Tile.view ↔ ∃ w ∈ checkedWins (meldCount melds),
      IsStep true w (minus (heldKinds hand) (tileOf n).view) your.step ∧
      UsefulKind w (minus (heldKinds hand) (tileOf n).view) u := by
  obtain ⟨tiles, lists, h4, ht, h1, h2, h3, h5, h6⟩ := analyse_inv h
  obtain ⟨t1, t2, t3, t4, _⟩ := analyse_hand hi hn
  rw [t1] at ht
  cases ht
  have hc : content a.hand = heldKinds hand := by rw [h2, content_reSort' t2, t3]
  have hok : HandOK a.hand := by rw [h2]; exact HandOK.reSort' t2
  obtain ⟨_, s2, s3, s4⟩ := tileOf_spec (hn n hm)
  have hpos : 0 < content a.hand (tileOf n).view := by
    rw [hc]
    unfold heldKinds
    have : n ∈ hand.filter (fun m => decide (CopyOf m (tileOf n).view)) := by
      rw [List.mem_filter]; exact ⟨hm, by simpa using (s3 _).1 rfl⟩
    have := List.length_pos_of_mem this
    omega
  rw [h3] at hi'
  have hf := mapM_forall hi'
  have hitem : ∀ y ∈ items, ∃ w ∈ checkedWins (meldCount melds), reasoningDiscards a.invisible a.hand (tileOf n) w = .ok y := by
    intro y hy'
    obtain ⟨i, hi''⟩ := List.mem_iff_getElem?.1 hy'
    obtain ⟨w, w1, w2⟩ := hf.of_right hi''
    exact ⟨w, List.mem_of_getElem? w1, w2⟩
  have hwin : ∀ w ∈ checkedWins (meldCount melds), ∃ y ∈ items, reasoningDiscards a.invisible a.hand (tileOf n) w = .ok y := by
    intro w hw'
    obtain ⟨i, hi''⟩ := List.mem_iff_getElem?.1 hw'
    obtain ⟨w, w1, w2⟩ := hf.of_left hi''
    exact ⟨w, List.mem_of_getElem? w1, w2⟩
  have hok' : ItemOK a.invisible your := by
    refine merge_item hy (fun y hy' => ?_)
    obtain ⟨w, _, hw⟩ := hitem y hy'
    exact (discard_item hok s2 hpos hw).2.2.2.2.1
  cases items with
  | nil => cases hy
  | cons y l =>
    simp only [reasoningMerge, pyMin_steps, bind, Except.bind] at hy
    cases hcount : usefulCount a.invisible (l.foldl reduceUseful y).useful with
    | error e => rw [hcount] at hy; cases hy
    | ok c =>
    rw [hcount] at hy
    simp only [pure, Except.pure, Except.ok.injEq] at hy
    subst hy
    obtain ⟨f1, f2, f3, f4, f5⟩ := fold_reduce l y
    rw [← hc]
    refine ⟨?_, hok', ?_, ?_, ?_, ?_, ?_⟩
    · obtain ⟨w, _, hw⟩ := hitem y (by simp)
      exact (discard_item hok s2 hpos hw).1
    · refine f5 (fun z hz => ?_)
      obtain ⟨w, _, hw⟩ := hitem z hz
      exact (discard_item hok s2 hpos hw).2.2.1
    · intro t ht
      obtain ⟨z, z1, _, z3⟩ := f4 t ht
      obtain ⟨w, _, hw⟩ := hitem z z1
      exact (discard_item hok s2 hpos hw).2.2.2.2.2 _ (fun _ => fromHand_plain) (by rw [h2]; exact keysIn_reSort t4)
        (fun _ => ⟨n, hm, rfl⟩) t z3
    · obtain ⟨z, z1, z2⟩ := f1
      obtain ⟨w, w1, hw⟩ := hitem z z1
      exact ⟨w, w1, z2 ▸ (discard_item hok s2 hpos hw).2.1⟩
    · intro w hw' m hm'
      obtain ⟨z, z1, z2⟩ := hwin w hw'
      rw [hm'.unique (discard_item hok s2 hpos z2).2.1]
      exact f2 z z1
    · intro u
      have := f3 u
      unfold kindsOf at this
      rw [this]
      constructor
      · rintro ⟨z, z1, z2, z3⟩
        obtain ⟨w, w1, hw⟩ := hitem z z1
        have d := discard_item hok s2 hpos hw
        exact ⟨w, w1, z2 ▸ d.2.1, (d.2.2.2.1 u).1 z3⟩
      · rintro ⟨w, w1, w2, w3⟩
        obtain ⟨z, z1, z2⟩ := hwin w w1
        have d := discard_item hok s2 hpos z2
        exact ⟨z, z1, d.2.1.unique w2, (d.2.2.2.1 u).2 w3⟩

end Verif.Proofs
