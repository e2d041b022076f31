import Verif.Proofs.Groups

namespace Verif.Proofs
open Verif.Py Verif.Model Verif.Spec

/-! ### sorting -/

theorem insertItem_perm (e : Tile × Int) (l : List (Tile × Int)) : (insertItem e l).Perm (e :: l) := by
  induction l with
  | nil => exact List.Perm.refl _
  | cons f l ih =>
    simp only [insertItem]
    split
    · exact ((List.Perm.cons f ih).trans (List.Perm.swap e f l))
    · exact List.Perm.refl _

theorem reSort_perm (c : TileSet) : (reSort c).Perm c := by
  induction c with
  | nil => exact List.Perm.refl _
  | cons e c ih => exact (insertItem_perm e _).trans (List.Perm.cons e ih)

theorem WF_perm {c d : TileSet} (h : c.Perm d) : Counter.WF c ↔ Counter.WF d := by
  unfold Counter.WF Counter.keys
  exact (h.map _).nodup_iff

theorem get_perm {c d : TileSet} (h : c.Perm d) (hc : Counter.WF c) (k : Kind) :
    Counter.get c k = Counter.get d k := by
  have hd := (WF_perm h).1 hc
  by_cases hk : k ∈ Counter.keys c
  · obtain ⟨e, he, rfl, hv⟩ := Counter.exists_of_mem_keys hc hk
    rw [← hv, Counter.get_of_mem hd (h.mem_iff.1 he)]
  · have hk' : k ∉ Counter.keys d := by
      intro h'; exact hk ((h.map _).mem_iff.2 h')
    rw [Counter.get_of_not_mem hk, Counter.get_of_not_mem hk']

/-- keys in strictly ascending order -/
def Sorted (c : TileSet) : Prop := (Counter.keys c).Pairwise Kind.lt

theorem Sorted.WF {c : TileSet} (h : Sorted c) : Counter.WF c :=
  List.Pairwise.imp (fun h' => Kind.lt_ne h') h

theorem insertItem_sorted {e : Tile × Int} {l : TileSet} (h : Sorted l)
    (hn : Keyed.view e.1 ∉ Counter.keys l) : Sorted (insertItem e l) := by
  induction l with
  | nil => simp [insertItem, Sorted]
  | cons f l ih =>
    simp only [insertItem]
    unfold Sorted at h ⊢
    simp only [Counter.keys_cons, List.pairwise_cons, List.mem_cons, not_or] at h hn
    split
    · rename_i hlt
      simp only [Counter.keys_cons, List.pairwise_cons]
      refine ⟨?_, ih h.2 hn.2⟩
      intro k hk
      have : k ∈ Counter.keys (e :: l) := ((insertItem_perm e l).map _).mem_iff.1 hk
      simp only [Counter.keys_cons, List.mem_cons] at this
      rcases this with rfl | this
      · exact hlt
      · exact h.1 k this
    · rename_i hlt
      simp only [Counter.keys_cons, List.pairwise_cons, List.mem_cons]
      refine ⟨?_, h.1, h.2⟩
      have he : Kind.lt (Keyed.view e.1) (Keyed.view f.1) := by
        rcases Kind.lt_tri (Keyed.view e.1) (Keyed.view f.1) with h' | h' | h'
        · exact h'
        · exact absurd h' hn.1
        · exact absurd h' hlt
      rintro k (rfl | hk)
      · exact he
      · exact Kind.lt_trans he (h.1 k hk)

theorem reSort_sorted {c : TileSet} (h : Counter.WF c) : Sorted (reSort c) := by
  induction c with
  | nil => simp [reSort, Sorted]
  | cons e c ih =>
    rw [Counter.WF_cons] at h
    refine insertItem_sorted (ih h.2) ?_
    intro h'
    exact h.1 (((reSort_perm c).map _).mem_iff.1 h')

theorem _root_.Verif.Spec.HandOK.reSort {c : TileSet} (h : HandOK c) : HandOK (reSort c) :=
  ⟨(WF_perm (reSort_perm c)).2 h.1, fun e he => h.2.1 e ((reSort_perm c).mem_iff.1 he),
   fun e he => h.2.2 e ((reSort_perm c).mem_iff.1 he)⟩

/-! ### reading a well-formed hand -/

theorem _root_.Verif.Spec.HandOK.get_nonneg {c : TileSet} (h : HandOK c) (k : Kind) : 0 ≤ Counter.get c k := by
  by_cases hk : k ∈ Counter.keys c
  · obtain ⟨e, he, rfl, hv⟩ := Counter.exists_of_mem_keys h.1 hk
    rw [← hv]; exact h.2.2 e he
  · rw [Counter.get_of_not_mem hk]; exact Int.le_refl 0

theorem keys_valid {c : TileSet} (h : ∀ e ∈ c, RealTile e.1) {k : Kind} (hk : k ∈ Counter.keys c) :
    ValidKind k := by
  obtain ⟨e, he, rfl⟩ := Counter.mem_keys.1 hk
  exact (h e he).1

theorem total_eq_sumK {c : TileSet} (hw : Counter.WF c) (h : ∀ e ∈ c, RealTile e.1) :
    Counter.total c = sumK (Counter.get c) :=
  Counter.total_eq_sum hw allKinds nodup_allKinds (fun _ hk => mem_allKinds.2 (keys_valid h hk))

theorem needCount_le_total {c : TileSet} (h : HandOK c) {w : Pattern} {D : List Group}
    (hl : Legal w D) (hn : ∀ k, need D k ≤ Counter.get c k) : w.needCount ≤ Counter.total c := by
  rw [hl.needCount, total_eq_sumK h.1 h.2.1]
  exact sumK_mono (fun k _ => hn k)

/-! ### possible_units -/

theorem mem_set {c : TileSet} {a : Tile} {n : Int} {e : Tile × Int} (h : e ∈ Counter.set c a n) :
    e ∈ c ∨ (e.2 = n ∧ (e.1 = a ∨ ∃ f ∈ c, f.1 = e.1)) := by
  induction c with
  | nil => simp [Counter.set] at h; subst h; simp
  | cons f c ih =>
    obtain ⟨b, m⟩ := f
    simp only [Counter.set] at h
    split at h
    · rcases List.mem_cons.1 h with rfl | h
      · right; exact ⟨rfl, Or.inr ⟨(b, m), by simp, rfl⟩⟩
      · left; simp [h]
    · rcases List.mem_cons.1 h with rfl | h
      · left; simp
      · rcases ih h with h | ⟨h1, h2 | ⟨f, h3, h4⟩⟩
        · left; simp [h]
        · right; exact ⟨h1, Or.inl h2⟩
        · right; exact ⟨h1, Or.inr ⟨f, by simp [h3], h4⟩⟩

def AllPos (c : TileSet) : Prop := ∀ e ∈ c, 0 < e.2
def AllReal (c : TileSet) : Prop := ∀ e ∈ c, RealTile e.1

theorem AllPos.get_nonneg {c : TileSet} (h : AllPos c) (k : Kind) : 0 ≤ Counter.get c k := by
  induction c with
  | nil => simp
  | cons e c ih =>
    obtain ⟨a, n⟩ := e
    rw [Counter.get_cons]
    have := h (a, n) (by simp)
    have := ih (fun e he => h e (by simp [he]))
    split
    · simp at *; omega
    · exact this

theorem AllPos.set {c : TileSet} (h : AllPos c) {a : Tile} {n : Int} (hn : 0 < n) :
    AllPos (Counter.set c a n) := by
  intro e he
  rcases mem_set he with he | ⟨he, _⟩
  · exact h e he
  · omega

theorem AllReal.set {c : TileSet} (h : AllReal c) {a : Tile} {n : Int} (hn : RealTile a) :
    AllReal (Counter.set c a n) := by
  intro e he
  rcases mem_set he with he | ⟨_, he | ⟨f, hf, he⟩⟩
  · exact h e he
  · rw [he]; exact hn
  · rw [← he]; exact h f hf

theorem AllPos.addLoop {c d : TileSet} (h : AllPos c) (hd : AllPos d) : AllPos (Counter.addLoop c d) := by
  unfold Counter.addLoop
  induction d generalizing c with
  | nil => simpa
  | cons e d ih =>
    have he := hd e (by simp)
    have hc := h.get_nonneg (Keyed.view e.1)
    exact ih (h.set (by omega)) (fun e he => hd e (by simp [he]))

theorem AllPos.assignLoop {c d : TileSet} (h : AllPos c) (hd : AllPos d) :
    AllPos (Counter.assignLoop c d) := by
  unfold Counter.assignLoop
  induction d generalizing c with
  | nil => simpa
  | cons e d ih =>
    exact ih (h.set (hd e (by simp))) (fun e he => hd e (by simp [he]))

theorem AllReal.foldl_set {c d : TileSet} (g : TileSet → Tile × Int → Int) (h : AllReal c)
    (hd : AllReal d) : AllReal (d.foldl (fun c e => Counter.set c e.1 (g c e)) c) := by
  induction d generalizing c with
  | nil => simpa
  | cons e d ih =>
    exact ih (h.set (hd e (by simp))) (fun e he => hd e (by simp [he]))

/-- keys of an insertion-ordered dict after assigning `k` -/
def addKey (ks : List Kind) (k : Kind) : List Kind := if k ∈ ks then ks else ks ++ [k]

theorem keys_foldl_set (c : TileSet) (d : TileSet) (g : TileSet → Tile × Int → Int) :
    Counter.keys (d.foldl (fun c e => Counter.set c e.1 (g c e)) c)
      = (Counter.keys d).foldl addKey (Counter.keys c) := by
  induction d generalizing c with
  | nil => simp
  | cons e d ih =>
    simp only [List.foldl_cons, ih, Counter.keys_cons]
    rw [Counter.keys_set]; unfold addKey; congr

theorem keys_update (c d : TileSet) :
    Counter.keys (Counter.update c d) = (Counter.keys d).foldl addKey (Counter.keys c) := by
  unfold Counter.update
  split
  · exact keys_foldl_set c d (fun c e => c.get (Keyed.view e.1) + e.2)
  · exact keys_foldl_set c d (fun _ e => e.2)

theorem AllPos.update {c d : TileSet} (h : AllPos c) (hd : AllPos d) : AllPos (Counter.update c d) := by
  unfold Counter.update
  split
  · exact h.addLoop hd
  · exact h.assignLoop hd

theorem AllReal.update {c d : TileSet} (h : AllReal c) (hd : AllReal d) : AllReal (Counter.update c d) := by
  unfold Counter.update
  split
  · exact AllReal.foldl_set (fun c e => c.get (Keyed.view e.1) + e.2) h hd
  · exact AllReal.foldl_set (fun _ e => e.2) h hd

theorem AllPos_unitOf (g : Group) : AllPos (unitOf g) := by
  cases g <;> simp [AllPos, unitOf]

theorem realTile_plain {k : Kind} (h : ValidKind k) : RealTile (plain k) := by
  refine ⟨by simpa, ?_⟩
  simp [plain]

theorem AllReal_unitOf {g : Group} (h : g.Proper) : AllReal (unitOf g) := by
  intro e he
  have hk : Keyed.view e.1 ∈ Counter.keys (unitOf g) := Counter.mem_keys.2 ⟨e, he, rfl⟩
  have hv := h.valid_of_count ((keys_unitOf g _).1 hk)
  have : e.1 = plain (Keyed.view e.1) := by
    cases g <;> simp [unitOf] at he
    · subst he; simp
    · rcases he with rfl | rfl | rfl <;> simp
    · subst he; simp
  rw [this]; exact realTile_plain hv

/-- key list invariant while collecting the units of tiles up to `t` -/
structure KInv (t : Kind) (ks : List Kind) : Prop where
  sorted : ks.Pairwise Kind.lt
  ord : ∀ k ∈ ks, k.1.ord ≤ t.1.ord
  closed : ∀ k ∈ ks, ∀ j : Kind, j.1 = k.1 → ¬ Kind.lt j t → Kind.lt j k → j ∈ ks

theorem KInv.addKey {t : Kind} {ks : List Kind} (h : KInv t ks) {x : Kind} (hx1 : x.1 = t.1)
    (hx2 : ¬ Kind.lt x t) (hcl : ∀ j : Kind, j.1 = x.1 → ¬ Kind.lt j t → Kind.lt j x → j ∈ ks) :
    KInv t (addKey ks x) := by
  unfold Verif.Proofs.addKey
  split
  · exact h
  · rename_i hn
    have hlt : ∀ k ∈ ks, Kind.lt k x := by
      intro k hk
      rcases Kind.lt_tri k x with h' | h' | h'
      · exact h'
      · subst h'; exact absurd hk hn
      · have hc : k.1.ord ≤ x.1.ord := by rw [hx1]; exact h.ord k hk
        have hkx : x.1 = k.1 := by
          rcases h' with h' | h'
          · omega
          · exact h'.1
        exact absurd (h.closed k hk x hkx hx2 h') hn
    refine ⟨?_, ?_, ?_⟩
    · rw [List.pairwise_append]
      refine ⟨h.sorted, by simp, ?_⟩
      intro a ha b hb
      simp at hb; subst hb; exact hlt a ha
    · intro k hk
      rcases List.mem_append.1 hk with hk | hk
      · exact h.ord k hk
      · simp at hk; subst hk; rw [hx1]; exact Int.le_refl _
    · intro k hk j hj1 hj2 hj3
      rcases List.mem_append.1 hk with hk | hk
      · exact List.mem_append_left _ (h.closed k hk j hj1 hj2 hj3)
      · simp at hk; subst hk
        exact List.mem_append_left _ (hcl j hj1 hj2 hj3)

theorem mem_addKey {ks : List Kind} {x k : Kind} : k ∈ addKey ks x ↔ k ∈ ks ∨ k = x := by
  unfold addKey
  split
  · constructor
    · exact Or.inl
    · rintro (h | rfl) <;> assumption
  · simp

theorem mem_foldl_addKey {l ks : List Kind} {k : Kind} :
    k ∈ l.foldl addKey ks ↔ k ∈ ks ∨ k ∈ l := by
  induction l generalizing ks with
  | nil => simp
  | cons a l ih => simp only [List.foldl_cons, ih, mem_addKey, List.mem_cons]; grind

theorem KInv.unit {t : Kind} {ks : List Kind} (h : KInv t ks) {g : Group} (hg : g.first = t) :
    KInv t ((Counter.keys (unitOf g)).foldl Verif.Proofs.addKey ks) := by
  have h0 : KInv t (Verif.Proofs.addKey ks t) := by
    refine h.addKey rfl (Kind.lt_irrefl t) ?_
    intro j _ h1 h2; exact absurd h2 h1
  have hlt : ∀ (c : Suit) (n : Int) (j : Kind) , j.1 = c → (¬ Kind.lt j (c, n) ↔ n ≤ j.2) := by
    intro c n j hj; subst hj; unfold Kind.lt; simp
  have hlt2 : ∀ (c : Suit) (n : Int) (j : Kind) , j.1 = c → (Kind.lt j (c, n) ↔ j.2 < n) := by
    intro c n j hj; subst hj; unfold Kind.lt; simp
  cases g with
  | pair k =>
    simp only [Group.first] at hg; subst hg
    simpa [unitOf] using h0
  | trip k =>
    simp only [Group.first] at hg; subst hg
    simpa [unitOf] using h0
  | run k =>
    simp only [Group.first] at hg; subst hg
    obtain ⟨c, n⟩ := k
    simp only [unitOf, Counter.keys_cons, kview_plain, Counter.keys_nil, List.foldl_cons, List.foldl_nil]
    have h1 : KInv (c, n) (Verif.Proofs.addKey (Verif.Proofs.addKey ks (c, n)) (c, n + 1)) := by
      refine h0.addKey rfl ((hlt c n (c, n+1) rfl).2 (by simp; omega)) ?_
      intro j hj h1 h2
      rw [hlt c n j hj] at h1
      rw [hlt2 c (n+1) j hj] at h2
      have : j = (c, n) := Prod.ext hj (by simp; omega)
      rw [this]; exact mem_addKey.2 (Or.inr rfl)
    refine h1.addKey rfl ((hlt c n (c, n+2) rfl).2 (by simp; omega)) ?_
    intro j hj h1 h2
    rw [hlt c n j hj] at h1
    rw [hlt2 c (n+2) j hj] at h2
    have : j = (c, n) ∨ j = (c, n + 1) := by
      rcases Int.lt_or_le j.2 (n + 1) with h | h
      · left; exact Prod.ext hj (by simp; omega)
      · right; exact Prod.ext hj (by simp; omega)
    rcases this with rfl | rfl
    · exact mem_addKey.2 (Or.inl (mem_addKey.2 (Or.inr rfl)))
    · exact mem_addKey.2 (Or.inr rfl)

theorem KInv.mono {t t' : Kind} {ks : List Kind} (h : KInv t ks) (ht : Kind.lt t t') : KInv t' ks := by
  refine ⟨h.sorted, ?_, ?_⟩
  · intro k hk
    have := h.ord k hk
    rcases ht with ht | ht
    · omega
    · rw [← ht.1]; exact this
  · intro k hk j h1 h2 h3
    exact h.closed k hk j h1 (fun h4 => h2 (Kind.lt_trans h4 ht)) h3

/-- what is known of `possible_units` at any point of the collection -/
structure PU (pu : TileSet) : Prop where
  pos : AllPos pu
  real : AllReal pu

theorem mem_unitsAt {w : Pattern} {hand : TileSet} (hh : HandOK hand) {t : Tile} (ht : RealTile t)
    {c : TileSet} {w' : Pattern} : (c, w') ∈ unitsAt w hand t ↔
      ∃ g : Group, g.Proper ∧ g.first = t.view ∧ step w g = some w' ∧ c = unitOf g ∧
        ∀ k, g.count k ≤ Counter.get hand k := by
  unfold unitsAt
  rw [List.mem_filter, mem_nextStates ht]
  constructor
  · rintro ⟨⟨g, h1, h2, h3, rfl⟩, h4⟩
    exact ⟨g, h1, h2, h3, rfl, (contains_unit hh.get_nonneg).1 h4⟩
  · rintro ⟨g, h1, h2, h3, rfl, h4⟩
    exact ⟨⟨g, h1, h2, h3, rfl⟩, (contains_unit hh.get_nonneg).2 h4⟩

theorem pu_inner (us : List (TileSet × Pattern)) {t : Kind}
    (hus : ∀ e ∈ us, ∃ g : Group, g.Proper ∧ g.first = t ∧ e.1 = unitOf g) {pu : TileSet}
    (h1 : PU pu) (h2 : KInv t (Counter.keys pu)) :
    let pu' := us.foldl (fun pu us => Counter.update pu us.1) pu
    PU pu' ∧ KInv t (Counter.keys pu') ∧
      ∀ k, k ∈ Counter.keys pu' ↔ k ∈ Counter.keys pu ∨ ∃ e ∈ us, k ∈ Counter.keys e.1 := by
  induction us generalizing pu with
  | nil => simpa using ⟨h1, h2⟩
  | cons u us ih =>
    obtain ⟨g, hg, hf, hu⟩ := hus u (by simp)
    have h1' : PU (Counter.update pu u.1) := by
      rw [hu]
      exact ⟨h1.pos.update (AllPos_unitOf g), h1.real.update (AllReal_unitOf hg)⟩
    have h2' : KInv t (Counter.keys (Counter.update pu u.1)) := by
      rw [keys_update, hu]; exact h2.unit hf
    obtain ⟨a, b, c⟩ := ih (fun e he => hus e (by simp [he])) h1' h2'
    refine ⟨a, b, ?_⟩
    intro k
    simp only [List.foldl_cons]
    rw [c k, keys_update, mem_foldl_addKey]
    simp only [List.mem_cons, exists_eq_or_imp]
    grind

theorem pu_outer {w : Pattern} {hand : TileSet} (hh : HandOK hand) (l : TileSet)
    (hl : ∀ e ∈ l, RealTile e.1) (hs : Sorted l) {pu : TileSet} (h1 : PU pu)
    (h2 : ∀ e ∈ l, KInv (Keyed.view e.1) (Counter.keys pu)) (h3 : (Counter.keys pu).Pairwise Kind.lt) :
    let pu' := (l.map (fun e => (e.1, unitsAt w hand e.1))).foldl
      (fun pu tu => tu.2.foldl (fun pu us => Counter.update pu us.1) pu) pu
    PU pu' ∧ (Counter.keys pu').Pairwise Kind.lt ∧
      ∀ k, k ∈ Counter.keys pu' ↔ k ∈ Counter.keys pu ∨
        ∃ e ∈ l, ∃ u ∈ unitsAt w hand e.1, k ∈ Counter.keys u.1 := by
  induction l generalizing pu with
  | nil => simpa using ⟨h1, h3⟩
  | cons e l ih =>
    unfold Sorted at hs
    simp only [Counter.keys_cons, List.pairwise_cons] at hs
    have hus : ∀ u ∈ unitsAt w hand e.1, ∃ g : Group, g.Proper ∧ g.first = Keyed.view e.1 ∧
        u.1 = unitOf g := by
      rintro ⟨c, w'⟩ hu
      obtain ⟨g, a, b, _, d, _⟩ := (mem_unitsAt hh (hl e (by simp))).1 hu
      exact ⟨g, a, b, d⟩
    obtain ⟨a, b, c⟩ := pu_inner (unitsAt w hand e.1) hus h1 (h2 e (by simp))
    obtain ⟨a', b', c'⟩ := ih (fun e he => hl e (by simp [he])) hs.2 a
      (fun e' he' => b.mono (hs.1 _ (Counter.mem_keys.2 ⟨e', he', rfl⟩))) b.sorted
    refine ⟨a', b', ?_⟩
    intro k
    simp only [List.map_cons, List.foldl_cons]
    rw [c' k, c k]
    simp only [List.mem_cons, exists_eq_or_imp]
    grind

theorem possibleUnits_spec {w : Pattern} {hand : TileSet} (hh : HandOK hand) (hs : Sorted hand) :
    PU (possibleUnits w hand) ∧ Sorted (possibleUnits w hand) ∧
      ∀ k, k ∈ Counter.keys (possibleUnits w hand) ↔
        ∃ e ∈ hand, ∃ u ∈ unitsAt w hand e.1, k ∈ Counter.keys u.1 := by
  have := pu_outer (w := w) hh hand hh.2.1 hs (pu := []) ⟨by simp [AllPos], by simp [AllReal]⟩
    (fun e _ => ⟨by simp, by simp, by simp⟩) (by simp)
  obtain ⟨a, b, c⟩ := this
  refine ⟨a, b, ?_⟩
  intro k
  have h' := c k
  unfold possibleUnits unitList
  rw [h']
  simp

/-- the reduced hand of `_win_selections` -/
theorem reduced_spec {w : Pattern} {hand : TileSet} (hh : HandOK hand) (hs : Sorted hand) :
    HandOK (resetCounts (possibleUnits w hand) hand) ∧
    Sorted (resetCounts (possibleUnits w hand) hand) ∧
    ∀ k, Counter.get (resetCounts (possibleUnits w hand) hand) k =
      if ∃ e ∈ hand, ∃ u ∈ unitsAt w hand e.1, k ∈ Counter.keys u.1 then Counter.get hand k else 0 := by
  obtain ⟨⟨hp, hr⟩, hso, hk⟩ := possibleUnits_spec (w := w) hh hs
  generalize possibleUnits w hand = pu at *
  have heq : resetCounts pu hand = pu.map (fun e => (e.1, Counter.get hand (Keyed.view e.1))) := by
    unfold resetCounts
    apply List.map_congr_left
    intro e he
    rw [if_pos (hp e he)]
  have hkeys : Counter.keys (resetCounts pu hand) = Counter.keys pu := by
    rw [heq]; simp [Counter.keys, List.map_map, Function.comp_def]
  have hso' : Sorted (resetCounts pu hand) := by unfold Sorted; rw [hkeys]; exact hso
  have hw := hso'.WF
  refine ⟨⟨hw, ?_, ?_⟩, hso', ?_⟩
  · intro e he
    rw [heq] at he
    obtain ⟨f, hf, rfl⟩ := List.mem_map.1 he
    exact hr f hf
  · intro e he
    rw [heq] at he
    obtain ⟨f, hf, rfl⟩ := List.mem_map.1 he
    exact hh.get_nonneg _
  · intro k
    split
    · rename_i h
      have hm : k ∈ Counter.keys (resetCounts pu hand) := by rw [hkeys]; exact (hk k).2 h
      obtain ⟨e, he, rfl, hv⟩ := Counter.exists_of_mem_keys hw hm
      rw [← hv]
      rw [heq] at he
      obtain ⟨f, hf, rfl⟩ := List.mem_map.1 he
      rfl
    · rename_i h
      apply Counter.get_of_not_mem
      rw [hkeys, hk k]; exact h

/-! ### removing a unit or a tile keeps the invariants -/

theorem Sorted.filter {c : TileSet} (h : Sorted c) (p : Tile × Int → Bool) : Sorted (c.filter p) :=
  List.Pairwise.sublist (List.filter_sublist.map _) h

theorem keys_subtract_of_subset {c d : TileSet} (h : ∀ k ∈ Counter.keys d, k ∈ Counter.keys c) :
    Counter.keys (Counter.subtract c d) = Counter.keys c := by
  unfold Counter.subtract
  rw [keys_foldl_set c d (fun c e => c.get (Keyed.view e.1) - e.2)]
  generalize Counter.keys c = ks at *
  generalize Counter.keys d = l at *
  induction l with
  | nil => rfl
  | cons a l ih =>
    simp only [List.foldl_cons]
    have : addKey ks a = ks := by unfold addKey; rw [if_pos (h a (by simp))]
    rw [this]; exact ih (fun k hk => h k (by simp [hk]))

theorem real_subtract {c d : TileSet} (hc : AllReal c) (hd : AllReal d) :
    AllReal (Counter.subtract c d) :=
  AllReal.foldl_set (fun c e => c.get (Keyed.view e.1) - e.2) hc hd

theorem sub_spec {c : TileSet} (h : HandOK c) (hs : Sorted c) {g : Group} (hp : g.Proper)
    (hg : ∀ k, g.count k ≤ Counter.get c k) :
    HandOK (TileSet.sub c (unitOf g)) ∧ Sorted (TileSet.sub c (unitOf g)) ∧
      ∀ k, Counter.get (TileSet.sub c (unitOf g)) k = Counter.get c k - g.count k := by
  have hsub : ∀ k ∈ Counter.keys (unitOf g), k ∈ Counter.keys c := by
    intro k hk
    rw [keys_unitOf] at hk
    have := hg k
    have := Group.count_nonneg g k
    exact Counter.mem_keys_of_get_ne (by omega)
  unfold TileSet.sub Counter.isub Counter.keepPositive
  refine ⟨⟨Counter.WF_filter (Counter.WF_subtract h.1 _) _, ?_, ?_⟩, ?_, ?_⟩
  · intro e he
    exact real_subtract h.2.1 (AllReal_unitOf hp) e (List.mem_filter.1 he).1
  · intro e he
    have := (List.mem_filter.1 he).2
    simp at this; omega
  · refine Sorted.filter ?_ _
    unfold Sorted
    rw [keys_subtract_of_subset hsub]; exact hs
  · intro k
    have := Counter.get_isub h.1 (WF_unitOf g) k
    unfold Counter.isub Counter.keepPositive at this
    rw [this, get_unitOf]
    have := hg k
    omega

theorem del_spec {c : TileSet} (h : HandOK c) (hs : Sorted c) (j : Kind) :
    HandOK (Counter.del c j) ∧ Sorted (Counter.del c j) ∧
      ∀ k, Counter.get (Counter.del c j) k = if j = k then 0 else Counter.get c k := by
  refine ⟨⟨Counter.WF_del h.1 j, ?_, ?_⟩, Sorted.filter hs _, Counter.get_del h.1 j⟩
  · intro e he; exact h.2.1 e (List.mem_filter.1 he).1
  · intro e he; exact h.2.2 e (List.mem_filter.1 he).1

/-! ### soundness -/

theorem winLoop_sound {w : Pattern} {hand : TileSet} (hh : HandOK hand) (hs : Sorted hand)
    {rec : Pattern → TileSet → List Selection}
    (hrec : ∀ w' c sel, HandOK c → Sorted c → sel ∈ rec w' c →
      ∃ D, Legal w' D ∧ sel = D.map unitOf ∧ ∀ k, need D k ≤ Counter.get c k)
    (pre post : TileSet) (hpp : hand = pre ++ post) (cur : TileSet) (hc : HandOK cur)
    (hcs : Sorted cur) (hle : ∀ k, Counter.get cur k ≤ Counter.get hand k)
    (heq : ∀ k, k ∉ Counter.keys pre → (∃ e ∈ hand, ∃ u ∈ unitsAt w hand e.1, k ∈ Counter.keys u.1) →
      Counter.get cur k = Counter.get hand k)
    {sel : Selection}
    (hsel : sel ∈ winLoop rec (post.map (fun e => (e.1, unitsAt w hand e.1))) cur) :
    ∃ D, Legal w D ∧ sel = D.map unitOf ∧ ∀ k, need D k ≤ Counter.get hand k := by
  induction post generalizing pre cur with
  | nil => simp [winLoop] at hsel
  | cons e post ih =>
    simp only [List.map_cons, winLoop, List.mem_append] at hsel
    have hmem : e ∈ hand := by rw [hpp]; simp
    rcases hsel with hsel | hsel
    · rw [List.mem_flatMap] at hsel
      obtain ⟨⟨u, w'⟩, hu, hsel⟩ := hsel
      obtain ⟨tail, htail, rfl⟩ := List.mem_map.1 hsel
      obtain ⟨g, hg, hf, hst, rfl, hcont⟩ := (mem_unitsAt hh (hh.2.1 e hmem)).1 hu
      have hgc : ∀ k, g.count k ≤ Counter.get cur k := by
        intro k
        by_cases hk : g.count k = 0
        · rw [hk]; exact hc.get_nonneg k
        · rw [heq k ?_ ⟨e, hmem, _, hu, (keys_unitOf g k).2 hk⟩]
          · exact hcont k
          · intro hpre
            have := Group.first_le_of_count hk
            rw [hf] at this
            apply this
            have hso := hs
            unfold Sorted at hso
            rw [hpp] at hso
            unfold Counter.keys at hso
            rw [List.map_append, List.pairwise_append] at hso
            exact hso.2.2 k hpre _ (by simp; left; rfl)
      obtain ⟨h1, h2, h3⟩ := sub_spec hc hcs hg hgc
      obtain ⟨D, hD, htl, hn⟩ := hrec _ _ _ h1 h2 htail
      refine ⟨g :: D, legal_cons.2 ⟨hg, w', hst, hD⟩, by simp [htl], ?_⟩
      intro k
      have := hn k
      rw [h3] at this
      have := hle k
      simp; omega
    · obtain ⟨h1, h2, h3⟩ := del_spec hc hcs (Keyed.view e.1)
      refine ih (pre ++ [e]) (by simp [hpp]) _ h1 h2 ?_ ?_ hsel
      · intro k; rw [h3]; split
        · exact hh.get_nonneg k
        · exact hle k
      · intro k hk hex
        simp only [Counter.keys, List.map_append, List.mem_append, not_or] at hk
        rw [h3, if_neg, heq k hk.1 hex]
        intro h; exact hk.2 (by simp [h])

theorem winSelF_sound (fuel : Nat) {w : Pattern} {hand : TileSet} (hh : HandOK hand)
    (hs : Sorted hand) {sel : Selection} (hsel : sel ∈ winSelF fuel w hand) :
    ∃ D, Legal w D ∧ sel = D.map unitOf ∧ ∀ k, need D k ≤ Counter.get hand k := by
  induction fuel generalizing w hand sel with
  | zero => simp [winSelF] at hsel
  | succ fuel ih =>
    simp only [winSelF, List.mem_append] at hsel
    rcases hsel with hsel | hsel
    · split at hsel
      · rename_i hw
        simp at hsel; subst hsel
        exact ⟨[], legal_nil.2 hw, rfl, fun k => by simpa using hh.get_nonneg k⟩
      · simp at hsel
    · split at hsel
      · simp at hsel
      · split at hsel
        · simp at hsel
        · obtain ⟨h1, h2, h3⟩ := reduced_spec (w := w) hh hs
          refine winLoop_sound hh hs (fun w' c sel hc hcs h => ih hc hcs h) [] hand rfl _ h1 h2 ?_ ?_ hsel
          · intro k; rw [h3]; split
            · exact Int.le_refl _
            · exact hh.get_nonneg k
          · intro k _ hex; rw [h3, if_pos hex]

/-! ### completeness -/

theorem exists_min_first {D : List Group} (h : D ≠ []) :
    ∃ g ∈ D, ∀ g' ∈ D, ¬ Kind.lt g'.first g.first := by
  induction D with
  | nil => exact absurd rfl h
  | cons a D ih =>
    by_cases hD : D = []
    · subst hD; exact ⟨a, by simp, by simp [Kind.lt_irrefl]⟩
    · obtain ⟨g, hg, hmin⟩ := ih hD
      by_cases hlt : Kind.lt g.first a.first
      · refine ⟨g, by simp [hg], ?_⟩
        intro g' hg'
        rcases List.mem_cons.1 hg' with rfl | hg'
        · exact Kind.lt_asymm hlt
        · exact hmin g' hg'
      · refine ⟨a, by simp, ?_⟩
        intro g' hg'
        rcases List.mem_cons.1 hg' with rfl | hg'
        · exact Kind.lt_irrefl _
        · intro h'
          rcases Kind.lt_tri g.first a.first with h1 | h1 | h1
          · exact hlt h1
          · rw [← h1] at h'; exact hmin g' hg' h'
          · exact hmin g' hg' (Kind.lt_trans h' h1)

theorem legal_take {w : Pattern} {D : List Group} (h : Legal w D) {g : Group} (hg : g ∈ D) :
    ∃ w', step w g = some w' ∧ Legal w' (D.erase g) :=
  (legal_cons.1 (h.perm (List.perm_cons_erase hg))).2

theorem winLoop_complete {w : Pattern} {hand : TileSet} (hh : HandOK hand)
    {rec : Pattern → TileSet → List Selection} {D : List Group} (hD : Legal w D)
    {g : Group} (hgD : g ∈ D) (hmin : ∀ g' ∈ D, ¬ Kind.lt g'.first g.first)
    (hfit : ∀ k, need D k ≤ Counter.get hand k)
    (hrec : ∀ w' c, step w g = some w' → Legal w' (D.erase g) → HandOK c → Sorted c →
      (∀ k, need (D.erase g) k ≤ Counter.get c k) →
      ∃ sel ∈ rec w' c, sel.Perm ((D.erase g).map unitOf))
    (post : TileSet) (hpost : ∀ e ∈ post, e ∈ hand) (hps : Sorted post) (cur : TileSet)
    (hc : HandOK cur) (hcs : Sorted cur) (hle : ∀ k, need D k ≤ Counter.get cur k)
    (hg : g.first ∈ Counter.keys post) :
    ∃ sel ∈ winLoop rec (post.map (fun e => (e.1, unitsAt w hand e.1))) cur,
      sel.Perm (D.map unitOf) := by
  induction post generalizing cur with
  | nil => simp at hg
  | cons e post ih =>
    unfold Sorted at hps
    simp only [Counter.keys_cons, List.pairwise_cons, List.mem_cons] at hps hg
    have hreal := hh.2.1 e (hpost e (by simp))
    simp only [List.map_cons, winLoop, List.mem_append]
    by_cases he : g.first = Keyed.view e.1
    · obtain ⟨w', hst, hl⟩ := legal_take hD hgD
      have hu : (unitOf g, w') ∈ unitsAt w hand e.1 :=
        (mem_unitsAt hh hreal).2 ⟨g, hD.proper g hgD, he, hst, rfl,
          fun k => Int.le_trans (count_le_need hgD k) (hfit k)⟩
      obtain ⟨h1, h2, h3⟩ := sub_spec hc hcs (hD.proper g hgD)
        (fun k => Int.le_trans (count_le_need hgD k) (hle k))
      have hperm := List.perm_cons_erase hgD
      obtain ⟨sel, hsel, hp⟩ := hrec w' (TileSet.sub cur (unitOf g)) hst hl h1 h2 (by
        intro k
        rw [h3]
        have := hle k
        rw [need_perm hperm] at this
        simp at this; omega)
      refine ⟨unitOf g :: sel, Or.inl ?_, ?_⟩
      · rw [List.mem_flatMap]
        exact ⟨_, hu, List.mem_map.2 ⟨sel, hsel, rfl⟩⟩
      · exact (List.Perm.cons _ hp).trans (hperm.map unitOf).symm
    · have hg' : g.first ∈ Counter.keys post := by
        rcases hg with hg | hg
        · exact absurd hg he
        · exact hg
      obtain ⟨h1, h2, h3⟩ := del_spec hc hcs (Keyed.view e.1)
      obtain ⟨sel, hsel, hp⟩ := ih (fun e he => hpost e (by simp [he])) hps.2 _ h1 h2 (by
        intro k
        rw [h3]
        split
        · rename_i hk
          subst hk
          have hlt := hps.1 _ hg'
          by_cases h0 : need D (Keyed.view e.1) = 0
          · omega
          · obtain ⟨g', hg', hc'⟩ := exists_of_need_ne h0
            have h1 := Group.first_le_of_count hc'
            have h2 := hmin g' hg'
            exfalso
            rcases Kind.lt_tri g'.first g.first with h | h | h
            · exact h2 h
            · rw [h] at h1; exact h1 hlt
            · exact h1 (Kind.lt_trans hlt h)
        · exact hle k) hg'
      exact ⟨sel, Or.inr hsel, hp⟩

theorem winSelF_complete (fuel : Nat) {w : Pattern} {hand : TileSet} (hh : HandOK hand)
    (hs : Sorted hand) (hfuel : w.needUnits < fuel) {D : List Group} (hD : Legal w D)
    (hfit : ∀ k, need D k ≤ Counter.get hand k) :
    ∃ sel ∈ winSelF fuel w hand, sel.Perm (D.map unitOf) := by
  induction fuel generalizing w hand D with
  | zero => omega
  | succ fuel ih =>
    simp only [winSelF, List.mem_append]
    by_cases hn : D = []
    · subst hn
      rw [if_pos (legal_nil.1 hD)]
      exact ⟨[], Or.inl (by simp), by simp⟩
    · obtain ⟨h1, h2, h3⟩ := reduced_spec (w := w) hh hs
      have hkeys : ∀ g ∈ D, ∃ e ∈ hand, Keyed.view e.1 = g.first := by
        intro g hg
        have hp := Group.count_first_pos g
        have := Int.le_trans (count_le_need hg g.first) (hfit g.first)
        exact Counter.mem_keys.1 (Counter.mem_keys_of_get_ne (by omega))
      have hfit' : ∀ k, need D k ≤ Counter.get (resetCounts (possibleUnits w hand) hand) k := by
        intro k
        rw [h3]
        by_cases h0 : need D k = 0
        · rw [h0]; split
          · exact hh.get_nonneg k
          · exact Int.le_refl _
        · rw [if_pos]
          · exact hfit k
          · obtain ⟨g, hg, hck⟩ := exists_of_need_ne h0
            obtain ⟨e, he, hev⟩ := hkeys g hg
            obtain ⟨w', hst, _⟩ := legal_take hD hg
            exact ⟨e, he, (unitOf g, w'), (mem_unitsAt hh (hh.2.1 e he)).2
              ⟨g, hD.proper g hg, hev.symm, hst, rfl,
                fun k => Int.le_trans (count_le_need hg k) (hfit k)⟩, (keys_unitOf g k).2 hck⟩
      have hc1 := needCount_le_total hh hD hfit
      have hc2 := needCount_le_total h1 hD hfit'
      rw [if_neg (c := w.needCount > Counter.total hand) (Int.not_lt.2 hc1)]
      obtain ⟨g, hg, hmin⟩ := exists_min_first hn
      simp only [if_neg (Int.not_lt.2 hc2)]
      have := winLoop_complete (rec := winSelF fuel) hh hD hg hmin hfit (by
        intro w' c hst hl hc hcs hle
        have := step_needUnits hst
        exact ih hc hcs (by omega) hl hle) hand (fun e he => he) hs _ h1 h2 hfit' (by
          obtain ⟨e, he, hev⟩ := hkeys g hg
          exact Counter.mem_keys.2 ⟨e, he, hev⟩)
      obtain ⟨sel, hsel, hp⟩ := this
      refine ⟨sel, Or.inr ?_, hp⟩
      unfold unitList
      exact hsel

/-! ### win_selections and match -/

theorem winSelections_sound {w : Pattern} {hand : TileSet} (hh : HandOK hand) {sel : Selection}
    (hsel : sel ∈ winSelections w hand) :
    ∃ D, Legal w D ∧ sel = D.map unitOf ∧ ∀ k, need D k ≤ Counter.get hand k := by
  obtain ⟨D, h1, h2, h3⟩ := winSelF_sound _ (HandOK.reSort hh) (reSort_sorted hh.1) hsel
  exact ⟨D, h1, h2, fun k => by rw [← get_perm (reSort_perm hand) (HandOK.reSort hh).1]; exact h3 k⟩

theorem winSelections_complete {w : Pattern} {hand : TileSet} (hh : HandOK hand)
    {D : List Group} (hD : Legal w D) (hfit : ∀ k, need D k ≤ Counter.get hand k) :
    ∃ sel ∈ winSelections w hand, sel.Perm (D.map unitOf) :=
  winSelF_complete _ (HandOK.reSort hh) (reSort_sorted hh.1) (Nat.lt_succ_self _) hD
    (fun k => by rw [get_perm (reSort_perm hand) (HandOK.reSort hh).1]; exact hfit k)

theorem winMatch_iff {w : Pattern} {hand : TileSet} (hh : HandOK hand) :
    winMatch w hand = true ↔ Wins w (content hand) := by
  unfold winMatch
  constructor
  · intro h
    cases hl : winSelections w hand with
    | nil => rw [hl] at h; simp at h
    | cons sel l =>
      obtain ⟨D, h1, _, h3⟩ := winSelections_sound (w := w) hh (sel := sel) (by rw [hl]; simp)
      exact ⟨D, h1, h3⟩
  · rintro ⟨D, h1, h2⟩
    obtain ⟨sel, hsel, _⟩ := winSelections_complete hh h1 h2
    cases hl : winSelections w hand with
    | nil => simp [hl] at hsel
    | cons sel l => simp

end Verif.Proofs

namespace Verif.Proofs
open Verif.Py Verif.Model Verif.Spec

theorem needUnits_nextStates {w : Pattern} {t : Tile} {e : TileSet × Pattern}
    (h : e ∈ w.nextStates t) : e.2.needUnits + 1 = w.needUnits := by
  cases w with
  | normal p m =>
    simp only [Pattern.nextStates, List.mem_append] at h
    rcases h with h | h
    · split at h
      · simp at h; subst h; simp [Pattern.needUnits]; omega
      · simp at h
    · split at h
      · rw [List.mem_append] at h
        rcases h with h | h
        · split at h
          · split at h
            · simp at h; subst h; simp [Pattern.needUnits]; omega
            · simp at h
          · simp at h
        · simp at h; subst h; simp [Pattern.needUnits]; omega
      · simp at h
  | unique p used =>
    simp only [Pattern.nextStates] at h
    split at h
    · simp at h; subst h; simp [Pattern.needUnits]; omega
    · simp at h

theorem winLoop_congr {r r' : Pattern → TileSet → List Selection}
    (l : List (Tile × List (TileSet × Pattern))) (hand : TileSet)
    (h : ∀ tu ∈ l, ∀ e ∈ tu.2, ∀ c, r e.2 c = r' e.2 c) :
    winLoop r l hand = winLoop r' l hand := by
  induction l generalizing hand with
  | nil => rfl
  | cons tu l ih =>
    obtain ⟨t, us⟩ := tu
    simp only [winLoop]
    rw [ih _ (fun tu htu => h tu (by simp [htu]))]
    congr 1
    have : ∀ us' : List (TileSet × Pattern), (∀ e ∈ us', e ∈ us) →
        us'.flatMap (fun e => (r e.2 (TileSet.sub hand e.1)).map (fun tail => e.1 :: tail)) =
        us'.flatMap (fun e => (r' e.2 (TileSet.sub hand e.1)).map (fun tail => e.1 :: tail)) := by
      intro us' hus
      induction us' with
      | nil => rfl
      | cons e us' ih' =>
        simp only [List.flatMap_cons]
        rw [ih' (fun e he => hus e (by simp [he])), h (t, us) (by simp) e (hus e (by simp))]
    exact this us (fun _ h => h)

/-- More fuel than `need_units + 1` changes nothing: the fuel only bounds the recursion depth. -/
theorem winSel_fuel (fuel : Nat) (w : Pattern) (hand : TileSet) (h : w.needUnits < fuel) :
    winSelF fuel w hand = winSel w hand := by
  have key : ∀ f (w : Pattern) (hand : TileSet), w.needUnits < f →
      winSelF (f + 1) w hand = winSelF f w hand := by
    intro f
    induction f with
    | zero => intro w hand h; omega
    | succ f ih =>
      intro w hand h
      rw [winSelF, winSelF]
      simp only
      rw [winLoop_congr]
      intro tu htu e he c
      simp only [unitList, List.mem_map] at htu
      obtain ⟨x, _, rfl⟩ := htu
      have := needUnits_nextStates (List.mem_filter.1 he).1
      exact ih _ _ (by omega)
  unfold winSel
  obtain ⟨d, rfl⟩ : ∃ d, fuel = w.needUnits + 1 + d := ⟨fuel - (w.needUnits + 1), by omega⟩
  clear h
  induction d with
  | zero => rfl
  | succ d ih => rw [← ih, ← Nat.add_assoc, key _ _ _ (by omega)]

end Verif.Proofs
