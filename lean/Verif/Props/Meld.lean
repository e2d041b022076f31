import Verif.Proofs.Meld
import Verif.Model.GameType

/-!
Properties C25 to C29: bit fields, melds and game types.
-/
namespace Verif.Props
open Verif.Py Verif.Model Verif.Spec Verif.Proofs

/-! ### C25 -/

/-- **C25.** For every description of total width 16 and every value 0..65535: unpacking succeeds; entry
    `j` of the description (counted from the end of the unpacked tuple) has the name of line `j` and the bits
    at its offset; packing the unpacked fields gives the value back. -/
theorem C25_unpack_repack (desc : List Field) (hw : totalWidth desc = 16) (v : Int) (h0 : 0 ≤ v) (h1 : v ≤ 65535) :
    ∃ data, unpackWith desc v = .ok data ∧ data.length = desc.length ∧
      (∀ j (h : j < desc.length), data.reverse[j]? = some (desc[j].name, bitsAt v (offset desc j) desc[j].width)) ∧
      repackTo desc (data.map (fun e => e.2)) = v := by
  refine ⟨_, unpackWith_eq desc hw v h0 h1, by simp [lay_length], ?_, ?_⟩
  · intro j h
    rw [List.reverse_reverse, List.getElem?_zip_eq_some]
    refine ⟨by simp [h], ?_⟩
    rw [lay_get _ _ _ _ (by simpa using h)]
    simp [bitsAt, offset, List.map_take]
  · unfold repackTo
    have e : ((desc.map (fun f => f.name)).zip (lay v 0 (desc.map (fun f => f.width)))).reverse.map (fun e => e.2) =
        (lay v 0 (desc.map (fun f => f.width))).reverse := by
      rw [List.map_reverse]
      congr 1
      exact List.map_snd_zip (by simp [lay_length])
    rw [e, List.map_reverse, pack_lay]
    unfold totalWidth at hw
    rw [hw]
    simp only [Int.pow_zero, Int.ediv_one]
    exact Int.emod_eq_of_lt h0 (by omega)

/-- **C25.** Reading a field by its name gives its bits, when the names are distinct (`namedtuple` requires
    this). -/
theorem C25_field (desc : List Field) (hw : totalWidth desc = 16) (hn : (desc.map (fun f => f.name)).Nodup)
    (v : Int) (h0 : 0 ≤ v) (h1 : v ≤ 65535) (j : Nat) (h : j < desc.length) :
    ∃ data, unpackWith desc v = .ok data ∧
      field data desc[j].name = .ok (bitsAt v (offset desc j) desc[j].width) := by
  obtain ⟨data, hd, hl, hj, _⟩ := C25_unpack_repack desc hw v h0 h1
  refine ⟨data, hd, ?_⟩
  have hmem : (desc[j].name, bitsAt v (offset desc j) desc[j].width) ∈ data := by
    have := List.mem_of_getElem? (hj j h)
    simpa using this
  have hnames : data.reverse.map (fun e => e.1) = desc.map (fun f => f.name) := by
    apply List.ext_getElem?
    intro i
    simp only [List.getElem?_map]
    by_cases hi : i < desc.length
    · rw [hj i hi]; simp [hi]
    · rw [List.getElem?_eq_none (by simp; omega), List.getElem?_eq_none (by omega)]; rfl
  have hnd : (data.map (fun e => e.1)).Nodup := by
    rw [← hnames, List.map_reverse] at hn
    exact (List.reverse_perm _).nodup_iff.1 hn
  have key : ∀ (d : List (Str × Int)) (n : Str) (x : Int), (d.map (fun e => e.1)).Nodup → (n, x) ∈ d →
      field d n = .ok x := by
    intro d
    induction d with
    | nil => intro n x _ hm; simp at hm
    | cons e d ih =>
      intro n x hnd hm
      obtain ⟨m, y⟩ := e
      simp only [List.map_cons, List.nodup_cons] at hnd
      rcases List.mem_cons.1 hm with h | h
      · cases h; exact field_cons_eq _ _ _
      · rw [field_cons_ne]
        · exact ih n x hnd.2 h
        · rintro rfl
          exact hnd.1 (List.mem_map_of_mem (f := fun e => e.1) h)
  exact key _ _ _ hnd hmem

/-- **C25.** Values that do not fit in 16 bits are rejected, whatever the description. -/
theorem C25_rejects (desc : List Field) (v : Int) (h : v < 0 ∨ 65535 < v) :
    unpackWith desc v = .error .structError := by
  unfold unpackWith toBitBytes
  rw [if_neg (by omega)]

/-- **C25.** The field lists used by the model are what the description texts of the code say. -/
theorem C25_descriptions :
    parseDesc "\nkui:u2\nsyuntsu:b1\nhai0:u2\nhai1:u2\nhai2:u2\npadding__:u1\ntype6:u6\n".toList = some flushDesc ∧
    parseDesc "\nkui:u2\nsyuntsu:b1\nkoutsu:b1\nchakan:b1\nhai_unused:u2\npadding__:u2\ntype7:u7\n".toList = some tripletDesc ∧
    parseDesc "\nkui:u2\nsyuntsu:b1\nkoutsu:b1\nchakan:b1\nnuki:b1\npadding__:u2\ntype8:u8\n".toList = some kanDesc ∧
    parseDesc "\nkui:u2\nsyuntsu:b1\nkoutsu:b1\nchakan:b1\nhai_added:u2\npadding__:u2\ntype7:u7\n".toList = some addedKanDesc ∧
    parseDesc "\npreserved:u1\nno_aka_dora:b1\nno_tanyao_open_hand:b1\neast_and_south_round:b1\nthree_players:b1\nplay_level_high_bit:u1\nspeed_up:b1\nplay_level_low_bit:u1\nshow_discard_shadow:b1\nwith_tips:b1\nis_5tips:b1\npadding_:u5\n".toList
      = some gameTypeDesc := by
  decide +kernel

/-- the descriptions in use meet the hypotheses of the general theorems -/
example : ∀ d ∈ [flushDesc, tripletDesc, kanDesc, addedKanDesc, gameTypeDesc],
    totalWidth d = 16 ∧ (d.map (fun f => f.name)).Nodup := by decide
example : (unpackWith flushDesc 0b1010011011011101).toOption.bind (fun d => (field d "hai1".toList).toOption) = some 2 := by
  decide +kernel

/-! ### C26 -/

/-- **C26.** The code of any run decodes to that run: the called tile is borrowed, the two others are own
    tiles, and the source is the seat `src` places after the caller. -/
theorem C26_chi (who src suit start h0 h1 h2 called spare : Int) (hsrc : InRange src 4) (hsuit : InRange suit 3)
    (hstart : InRange start 7) (hh0 : InRange h0 4) (hh1 : InRange h1 4) (hh2 : InRange h2 4)
    (hc : InRange called 3) (hsp : InRange spare 2) :
    meldOf who (chiCode src suit start h0 h1 h2 called spare) =
      .ok { cls := .flush
            selfTiles := (chiTiles suit start h0 h1 h2).eraseIdx called.toNat
            borrowedTiles := [(chiTiles suit start h0 h1 h2).getD called.toNat 0]
            fromWho := (who + src) % 4 } := by
  unfold InRange at *
  have hr : 0 ≤ chiCode src suit start h0 h1 h2 called spare ∧ chiCode src suit start h0 h1 h2 called spare ≤ 65535 := by
    unfold chiCode; omega
  rw [meldOf_eq _ _ hr.1 hr.2, if_pos (by unfold chiCode; omega), decodeFlush_eq _ _ hr.1 hr.2]
  generalize hv : chiCode src suit start h0 h1 h2 called spare = v
  unfold chiCode at hv
  have e1 : v / 1024 = (suit * 7 + start) * 3 + called := by omega
  have e2 : v / 8 % 4 = h0 := by omega
  have e3 : v / 32 % 4 = h1 := by omega
  have e4 : v / 128 % 4 = h2 := by omega
  have e5 : v % 4 = src := by omega
  rw [if_pos (by omega), e1, e2, e3, e4, e5]
  have e6 : ((suit * 7 + start) * 3 + called) / 21 = suit := by omega
  have e7 : ((suit * 7 + start) * 3 + called) / 3 % 7 = start := by omega
  have e8 : ((suit * 7 + start) * 3 + called) % 3 = called := by omega
  rw [e6, e7, e8]

/-- **C26.** Every 16-bit code with the chi flag is the code of a run or has run index 63, and then it is
    rejected. -/
theorem C26_chi_all_codes (who v : Int) (h0 : 0 ≤ v) (h1 : v ≤ 65535) (hf : v / 4 % 2 = 1) :
    (∃ src suit start a b c called spare, InRange src 4 ∧ InRange suit 3 ∧ InRange start 7 ∧ InRange a 4 ∧
      InRange b 4 ∧ InRange c 4 ∧ InRange called 3 ∧ InRange spare 2 ∧
      v = chiCode src suit start a b c called spare) ∨
    (v / 1024 = 63 ∧ meldOf who v = .error .assertionError) := by
  by_cases h : v / 1024 < 63
  · left
    refine ⟨v % 4, v / 1024 / 21, v / 1024 / 3 % 7, v / 8 % 4, v / 32 % 4, v / 128 % 4, v / 1024 % 3, v / 512 % 2, ?_⟩
    unfold InRange chiCode
    omega
  · right
    refine ⟨by omega, ?_⟩
    rw [meldOf_eq _ _ h0 h1, if_pos hf, decodeFlush_eq _ _ h0 h1, if_neg h]

/-- 4-5-6 of circles, the 5 called from the left neighbour -/
example : meldOf 1 (chiCode 3 1 3 0 2 1 1 0) =
    .ok ⟨.flush, [copyOf 12 0, copyOf 14 1], [copyOf 13 2], 0⟩ := by decide +kernel

/-! ### C27 -/

/-- **C27.** Pon: the three copies other than the unused one, the called one of them borrowed. -/
theorem C27_pon (who src kind unused called spare spare2 : Int) (hsrc : InRange src 4) (hk : InRange kind 34)
    (hu : InRange unused 4) (hc : InRange called 3) (hs : InRange spare 2) (hs2 : InRange spare2 4) :
    meldOf who (ponCode src kind unused called spare spare2) =
      .ok { cls := .triplet
            selfTiles := (ponTiles kind unused).eraseIdx called.toNat
            borrowedTiles := [(ponTiles kind unused).getD called.toNat 0]
            fromWho := (who + src) % 4 } := by
  unfold InRange at *
  have hr : 0 ≤ ponCode src kind unused called spare spare2 ∧ ponCode src kind unused called spare spare2 ≤ 65535 := by
    unfold ponCode; omega
  rw [meldOf_eq _ _ hr.1 hr.2, if_neg (by unfold ponCode; omega), if_pos (by unfold ponCode; omega),
    decodeTriplet_eq _ _ hr.1 hr.2]
  generalize hv : ponCode src kind unused called spare spare2 = v
  unfold ponCode at hv
  have e1 : v / 512 = kind * 3 + called := by omega
  have e2 : v / 32 % 4 = unused := by omega
  have e5 : v % 4 = src := by omega
  rw [if_pos (by omega), e1, e2, e5]
  have e6 : (kind * 3 + called) / 3 = kind := by omega
  have e8 : (kind * 3 + called) % 3 = called := by omega
  rw [e6, e8]

/-- **C27.** Added kan: exactly the added copy, nothing borrowed. -/
theorem C27_added_kan (who src kind added called spare2 : Int) (hsrc : InRange src 4) (hk : InRange kind 34)
    (hu : InRange added 4) (hc : InRange called 3) (hs2 : InRange spare2 4) :
    meldOf who (addedKanCode src kind added called spare2) =
      .ok ⟨.addedKan, [copyOf kind added], [], (who + src) % 4⟩ := by
  unfold InRange at *
  have hr : 0 ≤ addedKanCode src kind added called spare2 ∧ addedKanCode src kind added called spare2 ≤ 65535 := by
    unfold addedKanCode; omega
  rw [meldOf_eq _ _ hr.1 hr.2, if_neg (by unfold addedKanCode; omega), if_neg (by unfold addedKanCode; omega),
    if_pos (by unfold addedKanCode; omega), decodeAddedKan_eq _ _ hr.1 hr.2]
  generalize hv : addedKanCode src kind added called spare2 = v
  unfold addedKanCode at hv
  have e1 : v / 512 = kind * 3 + called := by omega
  have e2 : v / 32 % 4 = added := by omega
  have e5 : v % 4 = src := by omega
  rw [if_pos (by omega), e1, e2, e5]
  have e6 : (kind * 3 + called) / 3 = kind := by omega
  rw [e6]

/-- **C27.** Concealed kan (source 0): all four copies are own tiles. -/
theorem C27_concealed_kan (who kind copy spare2 : Int) (hk : InRange kind 34) (hc : InRange copy 4)
    (hs2 : InRange spare2 4) :
    meldOf who (kanCode 0 kind copy spare2) =
      .ok ⟨.kan, [copyOf kind 0, copyOf kind 1, copyOf kind 2, copyOf kind 3], [], who % 4⟩ := by
  unfold InRange at *
  have hr : 0 ≤ kanCode 0 kind copy spare2 ∧ kanCode 0 kind copy spare2 ≤ 65535 := by
    unfold kanCode copyOf; omega
  rw [meldOf_eq _ _ hr.1 hr.2, if_neg (by unfold kanCode copyOf; omega), if_neg (by unfold kanCode copyOf; omega),
    if_neg (by unfold kanCode copyOf; omega), if_neg (by unfold kanCode copyOf; omega), decodeKan_eq _ _ hr.1 hr.2]
  generalize hv : kanCode 0 kind copy spare2 = v
  unfold kanCode copyOf at hv
  have e1 : v / 256 / 4 = kind := by omega
  rw [if_pos (by omega), if_pos (by omega), e1]
  rfl

/-- **C27.** Kan called from another seat: the named copy is borrowed, the three others are own tiles. -/
theorem C27_open_kan (who src kind copy spare2 : Int) (hsrc : InRange src 4) (hne : src ≠ 0) (hk : InRange kind 34)
    (hc : InRange copy 4) (hs2 : InRange spare2 4) :
    meldOf who (kanCode src kind copy spare2) =
      .ok ⟨.kan, ([copyOf kind 0, copyOf kind 1, copyOf kind 2, copyOf kind 3]).eraseIdx copy.toNat,
        [copyOf kind copy], (who + src) % 4⟩ := by
  unfold InRange at *
  have hr : 0 ≤ kanCode src kind copy spare2 ∧ kanCode src kind copy spare2 ≤ 65535 := by
    unfold kanCode copyOf; omega
  rw [meldOf_eq _ _ hr.1 hr.2, if_neg (by unfold kanCode copyOf; omega), if_neg (by unfold kanCode copyOf; omega),
    if_neg (by unfold kanCode copyOf; omega), if_neg (by unfold kanCode copyOf; omega), decodeKan_eq _ _ hr.1 hr.2]
  generalize hv : kanCode src kind copy spare2 = v
  unfold kanCode copyOf at hv
  have e1 : v / 256 / 4 = kind := by omega
  have e2 : v / 256 % 4 = copy := by omega
  have e5 : v % 4 = src := by omega
  rw [if_pos (by omega), if_neg (by omega), e1, e2, e5]
  rfl

/-- **C27.** Kita: exactly the named tile. -/
theorem C27_kita (who src tile spare2 : Int) (hsrc : InRange src 4) (ht : InRange tile 256) (hs2 : InRange spare2 4) :
    meldOf who (kitaCode src tile spare2) = .ok ⟨.kita, [tile], [], (who + src) % 4⟩ := by
  unfold InRange at *
  have hr : 0 ≤ kitaCode src tile spare2 ∧ kitaCode src tile spare2 ≤ 65535 := by
    unfold kitaCode; omega
  rw [meldOf_eq _ _ hr.1 hr.2, if_neg (by unfold kitaCode; omega), if_neg (by unfold kitaCode; omega),
    if_neg (by unfold kitaCode; omega), if_pos (by unfold kitaCode; omega), decodeKita_eq _ _ hr.1 hr.2]
  generalize hv : kitaCode src tile spare2 = v
  unfold kitaCode at hv
  have e1 : v / 256 = tile := by omega
  have e5 : v % 4 = src := by omega
  rw [e1, e5]

/-- **C27.** Codes without the chi flag: each is one of the codes above, or is rejected because its kind does
    not exist. -/
theorem C27_all_codes (who v : Int) (h0 : 0 ≤ v) (h1 : v ≤ 65535) (hf : v / 4 % 2 = 0) :
    (∃ src kind unused called spare spare2, InRange src 4 ∧ InRange kind 34 ∧ InRange unused 4 ∧ InRange called 3 ∧
      InRange spare 2 ∧ InRange spare2 4 ∧ v = ponCode src kind unused called spare spare2) ∨
    (∃ src kind added called spare2, InRange src 4 ∧ InRange kind 34 ∧ InRange added 4 ∧ InRange called 3 ∧
      InRange spare2 4 ∧ v = addedKanCode src kind added called spare2) ∨
    (∃ src kind copy spare2, InRange src 4 ∧ InRange kind 34 ∧ InRange copy 4 ∧ InRange spare2 4 ∧
      v = kanCode src kind copy spare2) ∨
    (∃ src tile spare2, InRange src 4 ∧ InRange tile 256 ∧ InRange spare2 4 ∧ v = kitaCode src tile spare2) ∨
    ((v / 8 % 2 = 1 ∨ v / 16 % 2 = 1) ∧ 34 ≤ v / 512 / 3 ∧ meldOf who v = .error .assertionError) ∨
    (v / 8 % 8 = 0 ∧ 34 ≤ v / 256 / 4 ∧ meldOf who v = .error .indexError) := by
  have hm := meldOf_eq who v h0 h1
  rw [if_neg (by omega)] at hm
  by_cases a : v / 8 % 2 = 1
  · rw [if_pos a, decodeTriplet_eq _ _ h0 h1] at hm
    by_cases h : v / 512 < 102
    · left
      refine ⟨v % 4, v / 512 / 3, v / 32 % 4, v / 512 % 3, v / 16 % 2, v / 128 % 4, ?_⟩
      unfold InRange ponCode; omega
    · rw [if_neg h] at hm
      exact Or.inr (Or.inr (Or.inr (Or.inr (Or.inl ⟨Or.inl a, by omega, hm⟩))))
  · rw [if_neg a] at hm
    by_cases b : v / 16 % 2 = 1
    · rw [if_pos b, decodeAddedKan_eq _ _ h0 h1] at hm
      by_cases h : v / 512 < 102
      · right; left
        refine ⟨v % 4, v / 512 / 3, v / 32 % 4, v / 512 % 3, v / 128 % 4, ?_⟩
        unfold InRange addedKanCode; omega
      · rw [if_neg h] at hm
        exact Or.inr (Or.inr (Or.inr (Or.inr (Or.inl ⟨Or.inr b, by omega, hm⟩))))
    · rw [if_neg b] at hm
      by_cases c : v / 32 % 2 = 1
      · right; right; right; left
        refine ⟨v % 4, v / 256, v / 64 % 4, ?_⟩
        unfold InRange kitaCode; omega
      · rw [if_neg c, decodeKan_eq _ _ h0 h1] at hm
        by_cases h : v / 256 < 136
        · right; right; left
          refine ⟨v % 4, v / 256 / 4, v / 256 % 4, v / 64 % 4, ?_⟩
          unfold InRange kanCode copyOf; omega
        · rw [if_neg h] at hm
          exact Or.inr (Or.inr (Or.inr (Or.inr (Or.inr ⟨by omega, by omega, hm⟩))))

example : meldOf 2 (ponCode 1 31 2 0 0 0) = .ok ⟨.triplet, [125, 127], [124], 3⟩ := by decide +kernel
example : meldOf 2 (addedKanCode 1 31 2 0 0) = .ok ⟨.addedKan, [126], [], 3⟩ := by decide +kernel
example : meldOf 2 (kanCode 0 4 1 0) = .ok ⟨.kan, [16, 17, 18, 19], [], 2⟩ := by decide +kernel
example : meldOf 2 (kanCode 3 4 1 0) = .ok ⟨.kan, [16, 18, 19], [17], 1⟩ := by decide +kernel
example : meldOf 2 (kitaCode 0 121 0) = .ok ⟨.kita, [121], [], 2⟩ := by decide +kernel

/-! ### C28 -/

/-- the type of meld a class belongs to -/
def typeOfClass : MeldClass → Option MeldType
  | .flush => some .flush
  | .triplet => some .triplet
  | .addedKan => some .addKan
  | .kita => some .kita
  | .kan => some .kan
  | .kanFromTriplet => none

/-- What the shape of a decoded meld must be.  `all` are its tile numbers. -/
structure MeldShape (m : Meld) : Prop where
  /-- no repeated number, so own and borrowed tiles are disjoint -/
  distinct : (m.selfTiles ++ m.borrowedTiles).Nodup
  /-- numbers of own and borrowed tiles -/
  sizes : match m.cls with
    | .flush | .triplet => m.selfTiles.length = 2 ∧ m.borrowedTiles.length = 1
    | .kan => (m.selfTiles.length = 4 ∧ m.borrowedTiles.length = 0) ∨
        (m.selfTiles.length = 3 ∧ m.borrowedTiles.length = 1)
    | .addedKan | .kita => m.selfTiles.length = 1 ∧ m.borrowedTiles.length = 0
    | .kanFromTriplet => False
  /-- one kind for pon and kan -/
  oneKind : m.cls = .triplet ∨ m.cls = .kan → ∃ k, InRange k 34 ∧ ∀ t ∈ m.selfTiles ++ m.borrowedTiles, t / 4 = k
  /-- three consecutive kinds of one numbered suit for chi -/
  run : m.cls = .flush → ∃ s n, InRange s 3 ∧ InRange n 7 ∧
    ((m.selfTiles ++ m.borrowedTiles).map (fun t => t / 4)).Perm [9 * s + n, 9 * s + n + 1, 9 * s + n + 2]
  /-- real tile numbers, except that a kita is not checked -/
  real : m.cls ≠ .kita → ∀ t ∈ m.selfTiles ++ m.borrowedTiles, InRange t 136
  /-- the source is a seat -/
  seat : InRange m.fromWho 4

/-- **C28.** Every code `meld_from` accepts gives a meld of the right shape, for which `meld_type` names the
    class. -/
theorem C28_shape (who v : Int) (m : Meld) (hm : meldOf who v = .ok m) :
    MeldShape m ∧ ∃ t, meldType v = .ok t ∧ typeOfClass m.cls = some t := by
  by_cases hr : 0 ≤ v ∧ v ≤ 65535
  rotate_left
  · exfalso
    have : unpackWith kitaDesc v = .error .structError := C25_rejects _ _ (by omega)
    unfold meldOf at hm
    rw [this] at hm
    cases hm
  obtain ⟨h0, h1⟩ := hr
  rw [meldType_eq v h0 h1]
  rw [meldOf_eq who v h0 h1] at hm
  by_cases a : v / 4 % 2 = 1
  · rw [if_pos a, decodeFlush_eq _ _ h0 h1] at hm
    split at hm
    rotate_left
    · cases hm
    rename_i h
    simp only [Except.ok.injEq] at hm
    subst hm
    rw [if_pos a]
    refine ⟨?_, _, rfl, rfl⟩
    have hw : v / 1024 % 3 = 0 ∨ v / 1024 % 3 = 1 ∨ v / 1024 % 3 = 2 := by omega
    generalize hs : v / 1024 / 21 = s
    generalize hn : v / 1024 / 3 % 7 = n
    generalize ha : v / 8 % 4 = x
    generalize hb : v / 32 % 4 = y
    generalize hc : v / 128 % 4 = z
    have d0 : copyOf (9 * s + n) x / 4 = 9 * s + n := by unfold copyOf; omega
    have d1 : copyOf (9 * s + n + 1) y / 4 = 9 * s + n + 1 := by unfold copyOf; omega
    have d2 : copyOf (9 * s + n + 2) z / 4 = 9 * s + n + 2 := by unfold copyOf; omega
    constructor
    · rcases hw with hw | hw | hw <;> rw [hw] <;> simp [chiTiles, copyOf] <;> omega
    · rcases hw with hw | hw | hw <;> rw [hw] <;> simp [chiTiles]
    · simp
    · intro _
      refine ⟨s, n, by unfold InRange; omega, by unfold InRange; omega, ?_⟩
      rcases hw with hw | hw | hw <;> rw [hw]
      · simp only [chiTiles, Int.toNat_zero, List.eraseIdx, List.getD_cons_zero, List.map_append, List.map, d0, d1, d2]
        exact List.perm_append_comm (l₁ := [_, _]) (l₂ := [_])
      · simp only [chiTiles, Int.toNat_one, List.eraseIdx, List.getD_cons_succ, List.getD_cons_zero, List.map_append,
          List.map, d0, d1, d2]
        exact List.Perm.cons _ (List.Perm.swap _ _ _)
      · have : (2 : Int).toNat = 2 := rfl
        simp only [chiTiles, this, List.eraseIdx, List.getD_cons_succ, List.getD_cons_zero, List.map_append,
          List.map, d0, d1, d2]
        exact List.Perm.refl _
    · intro _
      rcases hw with hw | hw | hw <;> rw [hw] <;> simp [chiTiles, copyOf, InRange] <;> omega
    · simp only [InRange]; omega
  rw [if_neg a] at hm ⊢
  by_cases b : v / 8 % 2 = 1
  · rw [if_pos b, decodeTriplet_eq _ _ h0 h1] at hm
    split at hm
    rotate_left
    · cases hm
    rename_i h
    simp only [Except.ok.injEq] at hm
    subst hm
    rw [if_pos b]
    refine ⟨?_, _, rfl, rfl⟩
    have hw : v / 512 % 3 = 0 ∨ v / 512 % 3 = 1 ∨ v / 512 % 3 = 2 := by omega
    have hu : v / 32 % 4 = 0 ∨ v / 32 % 4 = 1 ∨ v / 32 % 4 = 2 ∨ v / 32 % 4 = 3 := by omega
    generalize hs : v / 512 / 3 = s
    constructor
    · rcases hw with hw | hw | hw <;> rcases hu with hu | hu | hu | hu <;> rw [hw, hu] <;>
        simp [ponTiles, copyOf, List.filter] <;> omega
    · rcases hw with hw | hw | hw <;> rcases hu with hu | hu | hu | hu <;> rw [hw, hu] <;>
        simp [ponTiles, copyOf, List.filter]
    · intro _
      refine ⟨s, by unfold InRange; omega, ?_⟩
      rcases hw with hw | hw | hw <;> rcases hu with hu | hu | hu | hu <;> rw [hw, hu] <;>
        simp [ponTiles, copyOf, List.filter] <;> omega
    · simp
    · intro _
      rcases hw with hw | hw | hw <;> rcases hu with hu | hu | hu | hu <;> rw [hw, hu] <;>
        simp [ponTiles, copyOf, List.filter, InRange] <;> omega
    · simp only [InRange]; omega
  rw [if_neg b] at hm ⊢
  by_cases c : v / 16 % 2 = 1
  · rw [if_pos c, decodeAddedKan_eq _ _ h0 h1] at hm
    split at hm
    rotate_left
    · cases hm
    rename_i h
    simp only [Except.ok.injEq] at hm
    subst hm
    rw [if_pos c]
    refine ⟨?_, _, rfl, rfl⟩
    constructor
    · simp
    · simp
    · simp
    · simp
    · intro _
      simp [copyOf, InRange]; omega
    · simp only [InRange]; omega
  rw [if_neg c] at hm ⊢
  by_cases d : v / 32 % 2 = 1
  · rw [if_pos d, decodeKita_eq _ _ h0 h1] at hm
    simp only [Except.ok.injEq] at hm
    subst hm
    rw [if_pos d]
    refine ⟨?_, _, rfl, rfl⟩
    constructor
    · simp
    · simp
    · simp
    · simp
    · simp
    · simp only [InRange]; omega
  · rw [if_neg d, decodeKan_eq _ _ h0 h1] at hm
    split at hm
    rotate_left
    · cases hm
    rename_i h
    rw [if_neg d]
    generalize hs : v / 256 / 4 = s at hm
    simp only at hm
    split at hm
    · simp only [Except.ok.injEq] at hm
      subst hm
      refine ⟨?_, _, rfl, rfl⟩
      constructor
      · simp [copyOf]; omega
      · simp
      · intro _
        refine ⟨s, by unfold InRange; omega, ?_⟩
        simp [copyOf]; omega
      · simp
      · intro _
        simp [copyOf, InRange]; omega
      · simp only [InRange]; omega
    · simp only [Except.ok.injEq] at hm
      subst hm
      refine ⟨?_, _, rfl, rfl⟩
      have hu : v / 256 % 4 = 0 ∨ v / 256 % 4 = 1 ∨ v / 256 % 4 = 2 ∨ v / 256 % 4 = 3 := by omega
      constructor
      · rcases hu with hu | hu | hu | hu <;> rw [hu] <;> simp [copyOf] <;> omega
      · rcases hu with hu | hu | hu | hu <;> rw [hu] <;> simp
      · intro _
        refine ⟨s, by unfold InRange; omega, ?_⟩
        rcases hu with hu | hu | hu | hu <;> rw [hu] <;> simp [copyOf] <;> omega
      · simp
      · intro _
        rcases hu with hu | hu | hu | hu <;> rw [hu] <;> simp [copyOf, InRange] <;> omega
      · simp only [InRange]; omega

/-- an accepted code of each type, and a kita whose tile number does not exist -/
example : (meldOf 0 (chiCode 3 1 3 0 2 1 1 0)).toBool ∧ (meldOf 0 (ponCode 1 31 2 0 0 0)).toBool ∧
    (meldOf 0 (kanCode 3 4 1 0)).toBool ∧ (meldOf 0 (addedKanCode 1 31 2 0 0)).toBool := by decide +kernel

/-- **C28.** The number of a kita is not checked: the code names a tile that does not exist. -/
theorem C28_kita_unchecked : meldOf 0 (kitaCode 0 200 0) = .ok ⟨.kita, [200], [], 0⟩ ∧
    tileFromTenhou 200 = .error .indexError := by decide +kernel

/-! ### C29 -/

/-- bit `k` of `v` is set -/
def bitSet (v : Int) (k : Nat) : Bool := decide (v / 2 ^ k % 2 = 1)

/-- the text `str()` should give: player count, level (in the other alphabet with tips), winds, then one
    character for each rule in force -/
def gameTypeText (v : Int) : Str :=
  let opt (b : Bool) (s : String) : Str := if b then s.toList else []
  (if bitSet v 4 then "三" else "四").toList ++
  (match bitSet v 9, bitSet v 5, bitSet v 7 with
    | false, false, false => "般" | false, false, true => "上" | false, true, false => "特" | false, true, true => "鳳"
    | true, false, false => "若" | true, false, true => "銀" | true, true, false => "琥" | true, true, true => "孔").toList ++
  (if bitSet v 3 then "南" else "東").toList ++
  opt (!bitSet v 2) "喰" ++ opt (!bitSet v 1) "赤" ++ opt (bitSet v 6) "速" ++ opt (bitSet v 8) "暗" ++
  opt (bitSet v 9) (if bitSet v 10 then "祝5" else "祝2")

theorem unpack_gameType (v : Int) (h0 : 0 ≤ v) (h1 : v ≤ 65535) :
    unpackWith gameTypeDesc v = .ok [("padding_".toList, v / 2048 % 32), ("is_5tips".toList, v / 1024 % 2),
      ("with_tips".toList, v / 512 % 2), ("show_discard_shadow".toList, v / 256 % 2),
      ("play_level_low_bit".toList, v / 128 % 2), ("speed_up".toList, v / 64 % 2),
      ("play_level_high_bit".toList, v / 32 % 2), ("three_players".toList, v / 16 % 2),
      ("east_and_south_round".toList, v / 8 % 2), ("no_tanyao_open_hand".toList, v / 4 % 2),
      ("no_aka_dora".toList, v / 2 % 2), ("preserved".toList, v % 2)] := by
  rw [unpackWith_eq _ (by decide) _ h0 h1]
  simp [gameTypeDesc, lay]

theorem make_gameType (v : Int) (h0 : 0 ≤ v) (h1 : v ≤ 65535) :
    GameType.make v = .ok ⟨v, [("padding_".toList, v / 2048 % 32), ("is_5tips".toList, v / 1024 % 2),
      ("with_tips".toList, v / 512 % 2), ("show_discard_shadow".toList, v / 256 % 2),
      ("play_level_low_bit".toList, v / 128 % 2), ("speed_up".toList, v / 64 % 2),
      ("play_level_high_bit".toList, v / 32 % 2), ("three_players".toList, v / 16 % 2),
      ("east_and_south_round".toList, v / 8 % 2), ("no_tanyao_open_hand".toList, v / 4 % 2),
      ("no_aka_dora".toList, v / 2 % 2), ("preserved".toList, v % 2)], v / 2 % 1024 * 2⟩ := by
  unfold GameType.make
  rw [unpack_gameType v h0 h1]
  simp only [bind, Except.bind, pure, Except.pure]
  congr 2
  have := pack_lay v (List.replicate 10 1) 1
  simp [lay, packMsb, List.replicate] at this
  simp [zeroEnds, repackTo, gameTypeDesc, packMsb]
  rw [this]

/-- **C29.** Two game types are equal exactly when their codes agree on bits 1 to 10. -/
theorem C29_eq (a b : Int) (ha : 0 ≤ a ∧ a ≤ 65535) (hb : 0 ≤ b ∧ b ≤ 65535) :
    ∃ ga gb, GameType.make a = .ok ga ∧ GameType.make b = .ok gb ∧
      (GameType.eq ga gb = true ↔ ∀ k, 1 ≤ k → k ≤ 10 → bitSet a k = bitSet b k) := by
  refine ⟨_, _, make_gameType a ha.1 ha.2, make_gameType b hb.1 hb.2, ?_⟩
  simp only [GameType.eq, decide_eq_true_eq]
  constructor
  · intro h k k1 k2
    have hk : k = 1 ∨ k = 2 ∨ k = 3 ∨ k = 4 ∨ k = 5 ∨ k = 6 ∨ k = 7 ∨ k = 8 ∨ k = 9 ∨ k = 10 := by omega
    unfold bitSet
    rw [decide_eq_decide]
    rcases hk with rfl | rfl | rfl | rfl | rfl | rfl | rfl | rfl | rfl | rfl <;> simp <;> omega
  · intro h
    have q : ∀ k, 1 ≤ k → k ≤ 10 → (a / 2 ^ k % 2 = 1 ↔ b / 2 ^ k % 2 = 1) := by
      intro k k1 k2
      have := h k k1 k2
      unfold bitSet at this
      rwa [decide_eq_decide] at this
    have q1 := q 1 (by omega) (by omega)
    have q2 := q 2 (by omega) (by omega)
    have q3 := q 3 (by omega) (by omega)
    have q4 := q 4 (by omega) (by omega)
    have q5 := q 5 (by omega) (by omega)
    have q6 := q 6 (by omega) (by omega)
    have q7 := q 7 (by omega) (by omega)
    have q8 := q 8 (by omega) (by omega)
    have q9 := q 9 (by omega) (by omega)
    have q10 := q 10 (by omega) (by omega)
    simp only [Int.reducePow] at q1 q2 q3 q4 q5 q6 q7 q8 q9 q10
    have r : ∀ x y : Int, (x % 2 = 1 ↔ y % 2 = 1) → x % 2 = y % 2 := by intro x y; omega
    have r1 := r _ _ q1
    have r2 := r _ _ q2
    have r3 := r _ _ q3
    have r4 := r _ _ q4
    have r5 := r _ _ q5
    have r6 := r _ _ q6
    have r7 := r _ _ q7
    have r8 := r _ _ q8
    have r9 := r _ _ q9
    have r10 := r _ _ q10
    clear q1 q2 q3 q4 q5 q6 q7 q8 q9 q10 q r h
    have pa := pack_lay a (List.replicate 10 1) 1
    have pb := pack_lay b (List.replicate 10 1) 1
    simp [lay, packMsb, List.replicate] at pa pb
    rw [r1, r2, r3, r4, r5, r6, r7, r8, r9, r10] at pa
    rw [← pa, ← pb]

/-- **C29.** The accessors follow their documented bits, and `str()` always succeeds with the expected text. -/
theorem C29_accessors (v : Int) (h0 : 0 ≤ v) (h1 : v ≤ 65535) :
    ∃ g, GameType.make v = .ok g ∧
      g.playerCount = .ok (if bitSet v 4 then 3 else 4) ∧
      g.playWindCount = .ok (if bitSet v 3 then 2 else 1) ∧
      g.mainGameCount = .ok ((if bitSet v 3 then 2 else 1) * (if bitSet v 4 then 3 else 4)) ∧
      g.tipsCount = .ok (if bitSet v 9 then (if bitSet v 10 then 5 else 2) else 0) ∧
      g.hasAkaDora = .ok (!bitSet v 1) ∧ g.allowTanyaoOpen = .ok (!bitSet v 2) ∧
      g.playLevel = .ok ((if bitSet v 5 then 2 else 0) + (if bitSet v 7 then 1 else 0)) ∧
      g.str = .ok (gameTypeText v) := by
  refine ⟨_, make_gameType v h0 h1, ?_⟩
  have r : ∀ k : Nat, v / 2 ^ k % 2 = 0 ∨ v / 2 ^ k % 2 = 1 := by intro k; omega
  have bs : ∀ k : Nat, v / 2 ^ k % 2 = if bitSet v k then 1 else 0 := by
    intro k
    unfold bitSet
    by_cases h : v / 2 ^ k % 2 = 1
    · simp [h]
    · rcases r k with h' | h'
      · simp [h']
      · exact absurd h' h
  have c1 := bs 1
  have c2 := bs 2
  have c3 := bs 3
  have c4 := bs 4
  have c5 := bs 5
  have c6 := bs 6
  have c7 := bs 7
  have c8 := bs 8
  have c9 := bs 9
  have c10 := bs 10
  simp only [Int.reducePow] at c1 c2 c3 c4 c5 c6 c7 c8 c9 c10
  rw [c1, c2, c3, c4, c5, c6, c7, c8, c9, c10]
  unfold gameTypeText
  clear c1 c2 c3 c4 c5 c6 c7 c8 c9 c10
  generalize bitSet v 1 = b1
  generalize bitSet v 2 = b2
  generalize bitSet v 3 = b3
  generalize bitSet v 4 = b4
  generalize bitSet v 5 = b5
  generalize bitSet v 6 = b6
  generalize bitSet v 7 = b7
  generalize bitSet v 8 = b8
  generalize bitSet v 9 = b9
  generalize bitSet v 10 = b10
  generalize v / 2048 % 32 = p1
  generalize v % 2 = p2
  have bit_of : ∀ b : Bool, decide ((if b then 1 else 0 : Int) ≠ 0) = b := by decide
  refine ⟨?_, ?_, ?_, ?_, ?_, ?_, ?_, ?_⟩
  · simp only [GameType.playerCount, GameType.bit]; fields; cases b4 <;> rfl
  · simp only [GameType.playWindCount, GameType.bit]; fields; cases b3 <;> rfl
  · simp only [GameType.mainGameCount, GameType.playWindCount, GameType.playerCount, GameType.bit]; fields
    cases b3 <;> cases b4 <;> rfl
  · simp only [GameType.tipsCount, GameType.bit]; fields; cases b9 <;> cases b10 <;> rfl
  · simp only [GameType.hasAkaDora, GameType.bit]; fields; cases b1 <;> rfl
  · simp only [GameType.allowTanyaoOpen, GameType.bit]; fields; cases b2 <;> rfl
  · simp only [GameType.playLevel]; fields; cases b5 <;> cases b7 <;> rfl
  · simp only [GameType.str, GameType.playLevel, GameType.playerCount, GameType.playWindCount, GameType.tipsCount,
      GameType.hasAkaDora, GameType.allowTanyaoOpen, GameType.bit]
    fields
    simp only [bit_of]
    have x4 : pyIdx "零一二三四".toList (if b4 then 3 else 4) = .ok (if b4 then '三' else '四') := by cases b4 <;> rfl
    have x3 : pyIdx "_東南西北".toList (if b3 then 2 else 1) = .ok (if b3 then '南' else '東') := by cases b3 <;> rfl
    have x5 : pyIdx (ifValue b9 "若銀琥孔".toList "般上特鳳".toList)
        ((if b5 then 1 else 0) * 2 + (if b7 then 1 else 0)) =
        .ok (match b9, b5, b7 with
          | false, false, false => '般' | false, false, true => '上' | false, true, false => '特' | false, true, true => '鳳'
          | true, false, false => '若' | true, false, true => '銀' | true, true, false => '琥' | true, true, true => '孔') := by
      cases b9 <;> cases b5 <;> cases b7 <;> rfl
    rw [x4, x5]
    simp only [x3]
    have d5 : pyStrInt 5 = ['5'] := by decide +kernel
    have d2 : pyStrInt 2 = ['2'] := by decide +kernel
    unfold ifValue
    cases b9 <;> cases b10 <;> simp only [d5, d2, Bool.false_eq_true, if_true, if_false] <;>
      cases b5 <;> cases b7 <;> cases b3 <;> cases b4 <;> rfl

/-- **C29.** Codes that do not fit in 16 bits are rejected. -/
theorem C29_rejects (v : Int) (h : v < 0 ∨ 65535 < v) : GameType.make v = .error .structError := by
  unfold GameType.make
  rw [C25_rejects _ _ h]
  rfl

example : ((GameType.make 0xa9).bind GameType.str) = .ok "四鳳南喰赤".toList := by decide +kernel

end Verif.Props
