import Verif.Proofs.WinRate
import Verif.Props.Wall
import Verif.Proofs.Bounds

/-! Properties C63 and C64: the statistics of the win-rate experiment and its matrix of transfer rates. -/
namespace Verif.Props
open Verif.Py Verif.Model Verif.Spec Verif.Proofs

/-- the hypotheses on the entered hand: real tiles, every listed tile held at least once. -/
def EnteredHand (hand : TileSet) : Prop := HandOK hand ∧ ∀ e ∈ hand, 0 < e.2

instance (hand : TileSet) : Decidable (EnteredHand hand) := by unfold EnteredHand; infer_instance

/-- the drawn tiles are real tiles. -/
def RealSamples (samples : List (List Tile)) : Prop := ∀ ts ∈ samples, ∀ t ∈ ts, RealTile t

instance (samples : List (List Tile)) : Decidable (RealSamples samples) := by
  unfold RealSamples; infer_instance

/-! ### C63 -/

/-- what can be drawn beside a hand `h`.  Up to the size of the wall, no kind more often than four minus the copies in the hand.
    From then on everything has been drawn, and all that is drawn more is `7z`. -/
def FromWall (h : Kind → Int) (ts : List Tile) : Prop :=
  ((ts.length : Int) ≤ sumK (fun k => max 0 (4 - h k)) → ∀ k, ((ts.map Tile.view).count k : Int) ≤ max 0 (4 - h k)) ∧
  (sumK (fun k => max 0 (4 - h k)) ≤ (ts.length : Int) → ∀ k, ValidKind k → k ≠ (.z, 7) →
    ((ts.map Tile.view).count k : Int) = max 0 (4 - h k))

theorem samples_drawn (hand : TileSet) (hh : HandOK hand) (rss : List (List Nat))
    (hr : ∀ rs ∈ rss, ∀ r ∈ rs, r < 2 ^ 53) :
    ∃ samples, drawSamples hand rss = some samples ∧ RealSamples samples ∧
      samples.map List.length = rss.map List.length ∧ ∀ ts ∈ samples, FromWall (content hand) ts := by
  have hw := remain_ok hh
  have hc := fun k => content_remain hh k
  have hlen : TileSet.len (remainTiles hand) = sumK (fun k => max 0 (4 - content hand k)) := by
    show Counter.total _ = _
    rw [total_eq_sumK hw.1 hw.2.1]
    apply sumK_congr
    intro k hk
    have := hc k
    rw [if_pos hk] at this
    exact this
  have hmax : TileSet.len (remainTiles hand) ≤ 2 ^ 53 := by
    rw [hlen]
    have h1 : sumK (fun k => max 0 (4 - content hand k)) ≤ sumK (fun _ => 4) := by
      refine sumK_mono (fun k _ => ?_)
      have := hh.get_nonneg k
      unfold content
      omega
    have h2 : sumK (fun _ => 4) = 136 := by decide
    omega
  have one : ∀ rs : List Nat, (∀ r ∈ rs, r < 2 ^ 53) → ∃ ts rest, wallSample (remainTiles hand) rs = some (ts, rest) ∧
      ts.length = rs.length ∧ (∀ t ∈ ts, RealTile t) ∧ FromWall (content hand) ts := by
    intro rs hrs
    by_cases hn : (rs.length : Int) ≤ TileSet.len (remainTiles hand)
    · obtain ⟨ts, rest', t1, t2, _, t4, t5, _⟩ := C24_sample_without_replacement (remainTiles hand) hw hmax rs hrs hn
      have hle : ∀ k, ((ts.map Tile.view).count k : Int) ≤ max 0 (4 - content hand k) := by
        intro k
        have := t5 k
        rw [hc k] at this
        split at this <;> omega
      refine ⟨ts, rest', t1, t2, fun t ht => (t4 t ht).1, fun _ => hle, fun hge k hv _ => ?_⟩
      have hl : (ts.length : Int) = sumK (fun k => ((ts.map Tile.view).count k : Int)) := length_eq_sumK (fun t ht => (t4 t ht).1)
      have hs := sumK_sub (fun k => max 0 (4 - content hand k)) (fun k => ((ts.map Tile.view).count k : Int))
      have := le_sumK (f := fun k => max 0 (4 - content hand k) - ((ts.map Tile.view).count k : Int))
        (fun k _ => by have := hle k; omega) hv
      have := hle k
      omega
    · have hlen0 : 0 ≤ TileSet.len (remainTiles hand) := by
        rw [hlen]
        exact sumK_nonneg (fun k _ => by omega)
      obtain ⟨L, hL⟩ : ∃ L : Nat, (L : Int) = TileSet.len (remainTiles hand) := ⟨_, Int.toNat_of_nonneg hlen0⟩
      obtain ⟨ts, rest', t1, t2, t4, t5, _⟩ := C24_overdrawn (remainTiles hand) hw hmax (rs.take L) (rs.drop L)
        (fun r h => hrs r (List.mem_of_mem_take h)) (by rw [List.length_take]; omega)
      rw [List.take_append_drop] at t1
      refine ⟨_, rest', t1, ?_, ?_, fun h => ?_, fun _ k hv h7 => ?_⟩
      · simp only [List.length_append, List.length_replicate, t2, List.length_take, List.length_drop]
        omega
      · intro t ht
        rcases List.mem_append.1 ht with ht | ht
        · exact t4 t ht
        · rw [List.eq_of_mem_replicate ht]; decide
      · exfalso
        simp only [List.length_append, List.length_replicate, t2, List.length_take, List.length_drop] at h
        omega
      · have := t5 k
        rw [hc k, if_pos hv] at this
        have h0 : (List.replicate (rs.drop L).length (⟨.z, 7, false⟩ : Tile)).map Tile.view =
            List.replicate (rs.drop L).length (.z, 7) := by rw [List.map_replicate]; rfl
        rw [List.map_append, List.count_append, h0, List.count_replicate]
        have h7' : ¬ ((Suit.z, (7 : Int)) == k) = true := by simpa using fun e => h7 e.symm
        rw [if_neg h7']
        push_cast
        omega
  induction rss with
  | nil => exact ⟨[], rfl, by simp [RealSamples], rfl, by simp⟩
  | cons rs rest ih =>
    obtain ⟨l, l1, l2, l3, l4⟩ := ih (fun x hx => hr x (by simp [hx]))
    obtain ⟨ts, rest', t1, t2, t4, t5⟩ := one rs (hr rs (by simp))
    refine ⟨ts :: l, by simp [drawSamples, t1, l1], ?_, by simp [t2, l3], ?_⟩
    · intro x hx
      rcases List.mem_cons.1 hx with rfl | hx
      · exact t4
      · exact l2 x hx
    · intro x hx
      rcases List.mem_cons.1 hx with rfl | hx
      · exact t5
      · exact l4 x hx

/-- **C63.** However the random numbers fall and however many draws are asked for, every experiment draws the requested number of
    tiles, never more copies of a kind than four minus those in the hand as long as the tiles outside the hand suffice (after that
    only `7z`), and the statistics are those of the drawn samples. -/
theorem C63_samples (hand : TileSet) (hh : HandOK hand) (rss : List (List Nat))
    (hr : ∀ rs ∈ rss, ∀ r ∈ rs, r < 2 ^ 53) :
    ∃ samples, winRateRun hand rss = some (winTrials hand samples) ∧ RealSamples samples ∧
      samples.map List.length = rss.map List.length ∧ ∀ ts ∈ samples, FromWall (content hand) ts := by
  obtain ⟨samples, a, b⟩ := samples_drawn hand hh rss hr
  exact ⟨samples, by simp [winRateRun, a], b⟩

open Classical in
/-- **C63.** The win count of a discard is the number of experiments in which throwing it away leaves a hand
    that contains four melds and a pair or seven pairs; so it is at most the number of experiments. -/
theorem C63_win_counts (hand : TileSet) (h : EnteredHand hand) (samples : List (List Tile))
    (hs : RealSamples samples) (k : Kind) (hk : k ∈ heldList hand) :
    (winTrials hand samples).win k = (samples.filter (fun ts => decide (Completes hand k ts))).length ∧
    (winTrials hand samples).win k ≤ samples.length := by
  have e : (winTrials hand samples).win k = (samples.filter (fun ts => decide (Completes hand k ts))).length := by
    unfold winTrials
    rw [trials_win h.1 h.2 hs]
    simp only [WinStats.start, zero_add]
    clear hs
    induction samples with
    | nil => simp
    | cons ts l ih =>
      simp only [List.map_cons, List.sum_cons, ih, List.filter_cons]
      by_cases hc : Completes hand k ts
      · simp [mem_winners, hk, hc]; omega
      · simp [mem_winners, hc]
  refine ⟨e, ?_⟩
  rw [e]
  exact_mod_cast List.length_filter_le _ _

/-- **C63.** The total is the sum of the win counts of the discards. -/
theorem C63_total (hand : TileSet) (h : EnteredHand hand) (samples : List (List Tile)) (hs : RealSamples samples) :
    (winTrials hand samples).total = ((heldList hand).map (winTrials hand samples).win).sum := by
  unfold winTrials
  rw [trials_win h.1 h.2 hs]
  simp only [WinStats.start, zero_add]
  clear hs
  induction samples with
  | nil => simp
  | cons ts l ih =>
    simp only [List.map_cons, List.sum_cons, sum_map_addZ, ih]
    congr 1
    have := sum_indicator (l := heldList hand) (W := winners hand ts) 1 (heldList_nodup h.1) (winners_nodup h.1 ts)
      (winners_sub hand ts)
    rw [mul_one] at this
    have e2 : ((heldList hand).map (fun k => if k ∈ winners hand ts then (1 : Rat) else 0)).sum =
        (((heldList hand).map (fun k => if k ∈ winners hand ts then (1 : Int) else 0)).sum : Int) := by
      clear this
      induction heldList hand with
      | nil => simp
      | cons a l ih =>
        simp only [List.map_cons, List.sum_cons, ih]
        push_cast
        split <;> simp
    rw [e2] at this
    exact_mod_cast this.symm

open Classical in
/-- **C63.** In every won experiment the discards that win share one point: the shares add up to the number of
    experiments in which some discard wins, and no share exceeds the win count. -/
theorem C63_shares (hand : TileSet) (h : EnteredHand hand) (samples : List (List Tile)) (hs : RealSamples samples) :
    ((heldList hand).map (winTrials hand samples).avg).sum =
      ((samples.filter (fun ts => decide (∃ k ∈ heldList hand, Completes hand k ts))).length : Rat) ∧
    ∀ k, 0 ≤ (winTrials hand samples).avg k ∧
      (winTrials hand samples).avg k ≤ ((winTrials hand samples).win k : Rat) := by
  unfold winTrials
  rw [trials_win h.1 h.2 hs]
  simp only [WinStats.start, zero_add]
  clear hs
  induction samples with
  | nil => simp
  | cons ts l ih =>
    constructor
    · simp only [List.map_cons, List.sum_cons, sum_map_add', ih.1, share_sum h.1, List.filter_cons]
      have hw : winners hand ts = [] ↔ ¬ ∃ k ∈ heldList hand, Completes hand k ts := by
        rw [List.eq_nil_iff_forall_not_mem]
        simp only [mem_winners]
        constructor
        · rintro h ⟨k, h1, h2⟩; exact h k ⟨h1, h2⟩
        · rintro h k ⟨h1, h2⟩; exact h ⟨k, h1, h2⟩
      by_cases hc : ∃ k ∈ heldList hand, Completes hand k ts
      · have : ¬ winners hand ts = [] := fun h' => hw.1 h' hc
        simp only [this, hc, if_false, decide_true, if_true, List.length_cons]
        push_cast; ring
      · have : winners hand ts = [] := hw.2 hc
        simp only [this, hc, if_true, decide_false, Bool.false_eq_true, if_false]
        ring
    · intro k
      obtain ⟨i1, i2⟩ := ih.2 k
      simp only [List.map_cons, List.sum_cons]
      push_cast
      by_cases hk : k ∈ winners hand ts
      · have hpos : 1 ≤ ((winners hand ts).length : Rat) := by
          have : 0 < (winners hand ts).length := List.length_pos_of_mem hk
          exact_mod_cast this
        have h1 : 0 ≤ 1 / ((winners hand ts).length : Rat) := by positivity
        have h2 : 1 / ((winners hand ts).length : Rat) ≤ 1 := by
          rw [div_le_one (by linarith)]; exact hpos
        simp only [hk, if_true]
        constructor <;> linarith
      · simp only [hk, if_false]
        constructor <;> linarith

open Classical in
/-- **C63.** The points a losing discard concedes: nothing to itself, and together one point for every experiment
    that some discard wins and it does not. -/
theorem C63_conceded (hand : TileSet) (h : EnteredHand hand) (samples : List (List Tile)) (hs : RealSamples samples)
    (a : Kind) (ha : a ∈ heldList hand) :
    (winTrials hand samples).cond a a = 0 ∧
    ((heldList hand).map ((winTrials hand samples).cond a)).sum =
      ((samples.filter (fun ts => decide ((∃ k ∈ heldList hand, Completes hand k ts) ∧
        ¬ Completes hand a ts))).length : Rat) := by
  unfold winTrials
  rw [trials_win h.1 h.2 hs]
  simp only [WinStats.start, zero_add]
  clear hs
  induction samples with
  | nil => simp
  | cons ts l ih =>
    constructor
    · simp only [List.map_cons, List.sum_cons, ih.1]
      rw [if_neg (by rintro ⟨⟨_, h1⟩, h2⟩; exact h1 h2)]
      ring
    · simp only [List.map_cons, List.sum_cons, sum_map_add', ih.2, List.filter_cons]
      by_cases haw : a ∈ winners hand ts
      · have hca := (mem_winners.1 haw).2
        simp only [haw, hca, not_true, and_false, false_and, if_false, decide_false, Bool.false_eq_true]
        simp
      · have hca : ¬ Completes hand a ts := fun hc => haw (mem_winners.2 ⟨ha, hc⟩)
        simp only [ha, haw, hca, not_false_iff, true_and, and_true]
        rw [share_sum h.1]
        have hw : winners hand ts = [] ↔ ¬ ∃ k ∈ heldList hand, Completes hand k ts := by
          rw [List.eq_nil_iff_forall_not_mem]
          simp only [mem_winners]
          constructor
          · rintro h ⟨k, h1, h2⟩; exact h k ⟨h1, h2⟩
          · rintro h k ⟨h1, h2⟩; exact h ⟨k, h1, h2⟩
        by_cases hc : ∃ k ∈ heldList hand, Completes hand k ts
        · have : ¬ winners hand ts = [] := fun h' => hw.1 h' hc
          simp only [this, hc, if_false, decide_true, if_true, List.length_cons]
          push_cast; ring
        · have : winners hand ts = [] := hw.2 hc
          simp only [this, hc, if_true, decide_false, Bool.false_eq_true, if_false]
          ring

/-! ### C64 -/

open Classical in
/-- the facts about the counters used below -/
theorem stats_facts (hand : TileSet) (h : EnteredHand hand) (samples : List (List Tile)) (hs : RealSamples samples) :
    (∀ k ∈ heldList hand, 0 ≤ (winTrials hand samples).win k) ∧
    (∀ k ∈ heldList hand, ((winTrials hand samples).win k = 0 ↔ ∀ ts ∈ samples, ¬ Completes hand k ts)) ∧
    0 ≤ (winTrials hand samples).total ∧
    (∀ k ∈ heldList hand, (winTrials hand samples).win k ≤ (winTrials hand samples).total) ∧
    ((winTrials hand samples).total = 0 ↔ ¬ ∃ ts ∈ samples, ∃ k ∈ heldList hand, Completes hand k ts) := by
  have h1 : ∀ k ∈ heldList hand, 0 ≤ (winTrials hand samples).win k := fun k hk => by
    rw [(C63_win_counts hand h samples hs k hk).1]; omega
  have h2 : ∀ k ∈ heldList hand, ((winTrials hand samples).win k = 0 ↔ ∀ ts ∈ samples, ¬ Completes hand k ts) := by
    intro k hk
    rw [(C63_win_counts hand h samples hs k hk).1]
    simp [List.filter_eq_nil_iff]
  have h3 : ∀ k ∈ heldList hand, (winTrials hand samples).win k ≤ (winTrials hand samples).total := by
    intro k hk
    rw [C63_total hand h samples hs]
    have := le_sum_rat (l := heldList hand) (g := fun k => ((winTrials hand samples).win k : Rat))
      (fun k hk => by exact_mod_cast h1 k hk) hk
    have e : ((heldList hand).map (fun k => ((winTrials hand samples).win k : Rat))).sum =
        (((heldList hand).map (winTrials hand samples).win).sum : Int) := by
      induction heldList hand with
      | nil => simp
      | cons a l ih => simp [ih]
    rw [e] at this
    exact_mod_cast this
  have h4 : 0 ≤ (winTrials hand samples).total := by
    rw [C63_total hand h samples hs]
    apply List.sum_nonneg
    intro x hx
    obtain ⟨k, hk, rfl⟩ := List.mem_map.1 hx
    exact h1 k hk
  refine ⟨h1, h2, h4, h3, ?_⟩
  constructor
  · rintro h0 ⟨ts, hts, k, hk, hc⟩
    have := h3 k hk
    have := h1 k hk
    exact (h2 k hk).1 (by omega) ts hts hc
  · intro hno
    rw [C63_total hand h samples hs]
    apply List.sum_eq_zero
    intro x hx
    obtain ⟨k, hk, rfl⟩ := List.mem_map.1 hx
    exact (h2 k hk).2 (fun ts hts hc => hno ⟨ts, hts, k, hk, hc⟩)

/-- **C64.** With at least one experiment, the matrix is computed unless no experiment was won by any discard:
    then the division fails. -/
theorem C64_matrix_exists (hand : TileSet) (h : EnteredHand hand) (hne : hand ≠ []) (samples : List (List Tile))
    (hs : RealSamples samples) (hpos : samples ≠ []) :
    ((∃ m, conditionMatrix (winTrials hand samples) samples.length (heldList hand) = .ok m) ↔
      ∃ ts ∈ samples, ∃ k ∈ heldList hand, Completes hand k ts) ∧
    ((¬ ∃ ts ∈ samples, ∃ k ∈ heldList hand, Completes hand k ts) →
      conditionMatrix (winTrials hand samples) samples.length (heldList hand) = .error .zeroDivision) := by
  have hf := (stats_facts hand h samples hs).2.2.2.2
  have hl : ((samples.length : Int)) ≠ 0 := by simpa using hpos
  have hk : heldList hand ≠ [] := by simpa [heldList] using hne
  unfold conditionMatrix
  rw [if_neg hl]
  by_cases h0 : (winTrials hand samples).total = 0
  · have := hf.1 h0
    rw [if_pos ⟨hk, h0⟩]
    exact ⟨⟨fun ⟨_, e⟩ => (by cases e), fun e => absurd e this⟩, fun _ => rfl⟩
  · have : ∃ ts ∈ samples, ∃ k ∈ heldList hand, Completes hand k ts := by
      by_contra hc; exact h0 (hf.2 hc)
    rw [if_neg (fun e => h0 e.2)]
    exact ⟨⟨fun _ => this, fun _ => ⟨_, rfl⟩⟩, fun e => absurd this e⟩

theorem column_sum (hand : TileSet) (h : EnteredHand hand) (samples : List (List Tile)) (hs : RealSamples samples)
    (hpos : samples ≠ []) (h0 : (winTrials hand samples).total ≠ 0) (c : Kind) (hc : c ∈ heldList hand) :
    (∀ r ∈ heldList hand, 0 ≤ matrixEntry (winTrials hand samples) samples.length (heldList hand) r c) ∧
    ((heldList hand).map (fun r => matrixEntry (winTrials hand samples) samples.length (heldList hand) r c)).sum ≤ 1 ∧
    (((heldList hand).map (fun r => matrixEntry (winTrials hand samples) samples.length (heldList hand) r c)).sum = 1 ↔
      ∀ k ∈ heldList hand, k ≠ c → ∀ ts ∈ samples, ¬ Completes hand k ts) := by
  obtain ⟨f1, f2, f3, f4, f5⟩ := stats_facts hand h samples hs
  have hsh := C63_shares hand h samples hs
  have hcc := (C63_conceded hand h samples hs c hc).1
  have htot := C63_total hand h samples hs
  have hwc := fun k hk => (C63_win_counts hand h samples hs k hk).1
  generalize winTrials hand samples = st at *
  have hT : (0 : Rat) < st.total := by exact_mod_cast (show 0 < st.total by omega)
  have htr : (0 : Rat) < ((samples.length : Int) : Rat) := by
    have : 0 < samples.length := List.length_pos_iff.2 hpos
    exact_mod_cast this
  have hraw : ∀ r, 0 < rawEntry st samples.length r c := by
    intro r
    unfold rawEntry
    split
    · rename_i hx; exact hx.1
    · positivity
  have hS : 0 < ((heldList hand).map (fun r => rawEntry st samples.length r c)).sum :=
    lt_of_lt_of_le (hraw c) (le_sum_rat (fun k _ => (hraw k).le) hc)
  have ha0 := (hsh.2 c).1
  have haT : st.avg c ≤ st.total := by
    have h1 := (hsh.2 c).2
    have h2 : (st.win c : Rat) ≤ st.total := by exact_mod_cast f4 c hc
    linarith
  have hself0 : 0 ≤ st.avg c / st.total := by positivity
  have hself1 : st.avg c / st.total ≤ 1 := by rw [div_le_one hT]; exact haT
  have hsum : ((heldList hand).map (fun r => matrixEntry st samples.length (heldList hand) r c)).sum =
      1 - (1 - st.avg c / st.total) * (rawEntry st samples.length c c /
        ((heldList hand).map (fun r => rawEntry st samples.length r c)).sum) := by
    unfold matrixEntry
    simp only
    rw [sum_replace_one (heldList_nodup h.1) hc (fun r => rawEntry st samples.length r c)]
    have := hS.ne'
    field_simp
    ring
  have hq : 0 < rawEntry st samples.length c c / ((heldList hand).map (fun r => rawEntry st samples.length r c)).sum :=
    div_pos (hraw c) hS
  refine ⟨?_, ?_, ?_⟩
  · intro r hr
    unfold matrixEntry
    simp only
    split
    · exact hself0
    · exact mul_nonneg (hraw r).le (div_nonneg (by linarith) hS.le)
  · rw [hsum]
    have := mul_nonneg (by linarith : 0 ≤ 1 - st.avg c / st.total) hq.le
    linarith
  · rw [hsum]
    have e1 : (1 - (1 - st.avg c / st.total) * (rawEntry st samples.length c c /
        ((heldList hand).map (fun r => rawEntry st samples.length r c)).sum) = 1) ↔ st.avg c = st.total := by
      constructor
      · intro he
        have : (1 - st.avg c / st.total) * (rawEntry st samples.length c c /
          ((heldList hand).map (fun r => rawEntry st samples.length r c)).sum) = 0 := by linarith
        rcases mul_eq_zero.1 this with h' | h'
        · have : st.avg c / st.total = 1 := by linarith
          rwa [div_eq_one_iff_eq hT.ne'] at this
        · exact absurd h' hq.ne'
      · intro he
        rw [he, div_self hT.ne']; ring
    rw [e1]
    constructor
    · intro he k hk hkc
      apply (f2 k hk).1
      have h1 := (hsh.2 c).2
      rw [he] at h1
      have h1' : st.total ≤ st.win c := by exact_mod_cast h1
      have := two_le_sum_int f1 hc hk hkc
      have := f1 k hk
      omega
    · intro hall
      have hz : ∀ k ∈ heldList hand, k ≠ c → st.win k = 0 := fun k hk hkc => (f2 k hk).2 (hall k hk hkc)
      have e2 : st.total = st.win c := by
        rw [htot, sum_int_eq_single (heldList_nodup h.1) hc hz]
      have e3 : ((heldList hand).map st.avg).sum = st.avg c := by
        apply sum_rat_eq_single (heldList_nodup h.1) hc
        intro k hk hkc
        have := hsh.2 k
        rw [hz k hk hkc] at this
        push_cast at this
        linarith
      rw [← e3, hsh.1, e2, hwc c hc]
      push_cast
      congr 2
      apply List.filter_congr
      intro ts hts
      rw [Bool.eq_iff_iff]
      simp only [decide_eq_true_eq]
      constructor
      · rintro ⟨k, hk, hcomp⟩
        by_cases hkc : k = c
        · exact hkc ▸ hcomp
        · exact absurd hcomp (hall k hk hkc ts hts)
      · intro hcomp; exact ⟨c, hc, hcomp⟩

theorem matrix_ok (hand : TileSet) (hne : hand ≠ []) (samples : List (List Tile)) (m : List (List Rat)) (st : WinStats)
    (hm : conditionMatrix st samples.length (heldList hand) = .ok m) :
    samples ≠ [] ∧ st.total ≠ 0 ∧
    m = (heldList hand).map (fun row => (heldList hand).map (fun col =>
      matrixEntry st samples.length (heldList hand) row col)) := by
  unfold conditionMatrix at hm
  split at hm
  · cases hm
  · rename_i h1
    split at hm
    · cases hm
    · rename_i h2
      refine ⟨by rintro rfl; simp at h1, fun h0 => h2 ⟨by simpa [heldList] using hne, h0⟩, ?_⟩
      exact (Except.ok.inj hm).symm

/-- **C64.** The matrix is square with non-negative entries; every column adds up to at most one, and to exactly one
    only if no other discard won in any experiment.  (So it is not the matrix of a Markov chain that the
    program treats it as.) -/
theorem C64_columns (hand : TileSet) (h : EnteredHand hand) (hne : hand ≠ []) (samples : List (List Tile))
    (hs : RealSamples samples) (m : List (List Rat))
    (hm : conditionMatrix (winTrials hand samples) samples.length (heldList hand) = .ok m) :
    m.length = (heldList hand).length ∧ (∀ row ∈ m, row.length = (heldList hand).length ∧ ∀ x ∈ row, 0 ≤ x) ∧
    ∀ j (hj : j < (heldList hand).length),
      (m.map (fun row => row.getD j 0)).sum ≤ 1 ∧
      ((m.map (fun row => row.getD j 0)).sum = 1 ↔
        ∀ k ∈ heldList hand, k ≠ (heldList hand)[j] → ∀ ts ∈ samples, ¬ Completes hand k ts) := by
  obtain ⟨hp, h0, rfl⟩ := matrix_ok hand hne samples m _ hm
  have hcol := column_sum hand h samples hs hp h0
  refine ⟨by simp, ?_, ?_⟩
  · intro row hrow
    obtain ⟨r, hr, rfl⟩ := List.mem_map.1 hrow
    refine ⟨by simp, ?_⟩
    intro x hx
    obtain ⟨c, hc, rfl⟩ := List.mem_map.1 hx
    exact (hcol c hc).1 r hr
  · intro j hj
    have hc : (heldList hand)[j] ∈ heldList hand := List.getElem_mem hj
    have := (hcol _ hc).2
    rw [List.map_map]
    have e : ((heldList hand).map ((fun row : List Rat => row.getD j 0) ∘ fun row => (heldList hand).map (fun col =>
        matrixEntry (winTrials hand samples) samples.length (heldList hand) row col))) =
        (heldList hand).map (fun r => matrixEntry (winTrials hand samples) samples.length (heldList hand) r (heldList hand)[j]) := by
      apply List.map_congr_left
      intro r _
      simp [List.getD_eq_getElem?_getD, hj]
    rw [e]
    exact this

theorem sum_comm' (l : List Kind) (l2 : List Kind) (g : Kind → Kind → Rat) :
    (l.map (fun r => (l2.map (fun c => g r c)).sum)).sum = (l2.map (fun c => (l.map (fun r => g r c)).sum)).sum := by
  induction l with
  | nil => simp
  | cons a l ih => simp only [List.map_cons, List.sum_cons, ih, sum_map_add']

theorem sum_mul_right' (l : List Kind) (g : Kind → Rat) (x : Rat) :
    (l.map (fun r => g r * x)).sum = (l.map g).sum * x := by
  induction l with
  | nil => simp
  | cons b l ih => simp only [List.map_cons, List.sum_cons, ih]; ring

/-- **C64.** The rough pick rates are non-negative, one per discard, and add up to at most one. -/
theorem C64_rough_pick (hand : TileSet) (h : EnteredHand hand) (hne : hand ≠ []) (samples : List (List Tile))
    (hs : RealSamples samples) (m : List (List Rat))
    (hm : conditionMatrix (winTrials hand samples) samples.length (heldList hand) = .ok m) :
    (roughPick m).length = (heldList hand).length ∧ (∀ x ∈ roughPick m, 0 ≤ x) ∧ (roughPick m).sum ≤ 1 := by
  obtain ⟨hp, h0, rfl⟩ := matrix_ok hand hne samples m _ hm
  have hcol := column_sum hand h samples hs hp h0
  generalize winTrials hand samples = st at *
  have hn : (0 : Rat) < (heldList hand).length := by
    have : 0 < (heldList hand).length := List.length_pos_iff.2 (by simpa [heldList] using hne)
    exact_mod_cast this
  have e : roughPick ((heldList hand).map (fun row => (heldList hand).map (fun col =>
      matrixEntry st samples.length (heldList hand) row col))) =
      (heldList hand).map (fun r => ((heldList hand).map (fun c =>
        matrixEntry st samples.length (heldList hand) r c * (1 / ((heldList hand).length : Rat)))).sum) := by
    unfold roughPick
    rw [List.map_map]
    apply List.map_congr_left
    intro r _
    simp [Function.comp_def]
  rw [e]
  refine ⟨by simp, ?_, ?_⟩
  · intro x hx
    obtain ⟨r, hr, rfl⟩ := List.mem_map.1 hx
    exact sum_nonneg_rat (fun c hc => mul_nonneg ((hcol c hc).1 r hr) (by positivity))
  · rw [sum_comm']
    have hle : ∀ (l : List Kind), (∀ c ∈ l, c ∈ heldList hand) →
        (l.map (fun c => ((heldList hand).map (fun r =>
          matrixEntry st samples.length (heldList hand) r c * (1 / ((heldList hand).length : Rat)))).sum)).sum
          ≤ l.length * (1 / ((heldList hand).length : Rat)) := by
      intro l
      induction l with
      | nil => simp
      | cons a l ih =>
        intro hl
        simp only [List.map_cons, List.sum_cons, List.length_cons]
        have h1 := ih (fun c hc => hl c (by simp [hc]))
        have h2 := (hcol a (hl a (by simp))).2.1
        have h3 := sum_mul_right' (heldList hand) (fun r => matrixEntry st samples.length (heldList hand) r a)
          (1 / ((heldList hand).length : Rat))
        rw [h3]
        have h4 := mul_le_mul_of_nonneg_right h2 (by positivity : (0 : Rat) ≤ 1 / ((heldList hand).length : Rat))
        push_cast
        linarith
    have := hle (heldList hand) (fun _ h => h)
    rwa [mul_one_div_cancel hn.ne'] at this

/-- instance: a hand of fourteen tiles with a red five and two experiments of one draw. -/
def exEntered : TileSet := Counter.ofIter
  [⟨.m,1,false⟩,⟨.m,2,false⟩,⟨.m,3,false⟩,⟨.m,4,false⟩,⟨.m,0,true⟩,⟨.m,6,false⟩,
   ⟨.p,9,false⟩,⟨.p,9,false⟩,⟨.p,9,false⟩,⟨.s,7,false⟩,⟨.s,8,false⟩,⟨.s,1,false⟩,⟨.z,1,false⟩,⟨.z,1,false⟩]

example : EnteredHand exEntered ∧ RealSamples [[⟨.s,9,false⟩], [⟨.z,7,false⟩]] ∧ exEntered ≠ [] ∧
    (winTrials exEntered [[⟨.s,9,false⟩], [⟨.z,7,false⟩]]).win (.s, 1) = 1 ∧
    (winTrials exEntered [[⟨.s,9,false⟩], [⟨.z,7,false⟩]]).total = 1 := by
  decide +kernel

end Verif.Props
