import Verif.Model.Url
import Verif.Model.Const
import Verif.Spec.Const
import Verif.Proofs.Str
import Verif.Proofs.Record

namespace Verif.Proofs
open Verif.Py Verif.Model Verif.Spec

theorem afterFirst_append {c : Char} {a : Str} (h : c ∉ a) (b : Str) : afterFirst c (a ++ c :: b) = some b := by
  induction a with
  | nil => simp [afterFirst]
  | cons d a ih =>
    simp only [List.mem_cons, not_or] at h
    simp [afterFirst, Ne.symm h.1, ih h.2]

theorem splitEq_append {n v : Str} (h : '=' ∉ n) : splitEq (n ++ '=' :: v) = some (n, v) := by
  induction n with
  | nil => simp [splitEq]
  | cons d a ih =>
    simp only [List.mem_cons, not_or] at h
    simp [splitEq, Ne.symm h.1, ih h.2]

theorem splitEq_some {s n v : Str} (h : splitEq s = some (n, v)) : s = n ++ '=' :: v ∧ '=' ∉ n := by
  induction s generalizing n v with
  | nil => simp [splitEq] at h
  | cons c s ih =>
    unfold splitEq at h
    split at h
    · next hc => simp only [Option.some.injEq, Prod.mk.injEq] at h; obtain ⟨rfl, rfl⟩ := h; simp [hc]
    · next hc =>
      obtain ⟨⟨a, b⟩, h1, h2⟩ := Option.map_eq_some_iff.1 h
      simp only [Prod.mk.injEq] at h2
      obtain ⟨rfl, rfl⟩ := h2
      have := ih h1
      refine ⟨by simp [this.1], ?_⟩
      simp only [List.mem_cons, not_or]
      exact ⟨Ne.symm hc, this.2⟩

theorem mem_joinWith {c sep : Char} {ps : List Str} (hc : c ≠ sep) (h : ∀ p ∈ ps, c ∉ p) : c ∉ joinWith sep ps := by
  induction ps with
  | nil => simp [joinWith]
  | cons p ps ih =>
    have h1 := h p (by simp)
    have h2 := ih (fun q hq => h q (by simp [hq]))
    cases ps with
    | nil => simpa [joinWith] using h1
    | cons q qs => simp only [joinWith, List.mem_append, List.mem_cons, not_or]; exact ⟨h1, hc, h2⟩

theorem queryPieces_join (semi : Bool) (ps : List Str) (hne : ps ≠ []) (h1 : ∀ p ∈ ps, '&' ∉ p)
    (h2 : ∀ p ∈ ps, ';' ∉ p) : queryPieces semi (joinWith '&' ps) = ps := by
  unfold queryPieces
  rw [splitOn_join _ _ hne h1]
  cases semi with
  | false => rfl
  | true =>
    simp only [if_true]
    have : ∀ l : List Str, (∀ p ∈ l, ';' ∉ p) → l.flatMap (splitOn ';') = l := by
      intro l
      induction l with
      | nil => simp
      | cons p l ih => intro h; rw [List.flatMap_cons, splitOn_none (h p (by simp)), ih (fun q hq => h q (by simp [hq]))]; rfl
    exact this ps h2

theorem urlQuery_of (base q frag : Str) (hb : '?' ∉ base) (hb' : '#' ∉ base) (hq : '#' ∉ q)
    (hf : frag = [] ∨ ∃ r, frag = '#' :: r) : urlQuery (base ++ '?' :: q ++ frag) = q := by
  unfold urlQuery
  have : (base ++ '?' :: q ++ frag).takeWhile (fun c => decide (c ≠ '#')) = base ++ '?' :: q := by
    rw [List.takeWhile_append_of_pos]
    · rcases hf with rfl | ⟨r, rfl⟩ <;> simp
    · intro c hc
      simp only [List.mem_append, List.mem_cons] at hc
      simp only [ne_eq, decide_not, Bool.not_eq_eq_eq_not, Bool.not_true, decide_eq_false_iff_not]
      rintro rfl
      rcases hc with hc | hc | hc
      · exact hb' hc
      · simp at hc
      · exact hq hc
  rw [this, afterFirst_append hb]
  rfl

theorem queryText_eq (decode : Str → Str) : queryText decode = unquotePlus decode := by
  funext s
  have : '%' ∈ s.map (fun c => if c = '+' then ' ' else c) ↔ '%' ∈ s := by
    rw [List.mem_map]
    constructor
    · rintro ⟨c, hc, e⟩
      split at e
      · exact absurd e (by decide)
      · exact e ▸ hc
    · intro h
      exact ⟨'%', h, by decide⟩
  simp only [queryText, unquotePlus, this]

theorem unquote_safe (decode : Str → Str) (s : Str) (h1 : '+' ∉ s) (h2 : '%' ∉ s) : unquotePlus decode s = s := by
  have : s.map (fun c => if c = '+' then ' ' else c) = s := by
    conv => rhs; rw [← List.map_id s]
    apply List.map_congr_left
    intro c hc
    have : c ≠ '+' := by rintro rfl; exact h1 hc
    simp [this]
  simp [unquotePlus, this, h2]

theorem lookup_filterMap_none (decode : Str → Str) (l : List Str) (h : ∀ p ∈ l, Extra (unquotePlus decode) p) (rest : List (Str × Str)) :
    (l.filterMap (queryPair decode) ++ rest).lookup "log".toList =
    rest.lookup "log".toList := by
  induction l with
  | nil => rfl
  | cons p l ih =>
    rw [List.filterMap_cons]
    simp only [queryPair]
    have ih' := ih (fun q hq => h q (by simp [hq]))
    cases hp : splitEq p with
    | none => simpa using ih'
    | some nv =>
      obtain ⟨n, v⟩ := nv
      simp only
      by_cases hv : v = []
      · simpa [hv] using ih'
      · simp only [if_neg hv]
        have := splitEq_some hp
        have hne := (h p (by simp)).2.2.2 n v this.1 this.2
        have : ("log".toList == unquotePlus decode n) = false := by
          rw [beq_eq_false_iff_ne]; exact Ne.symm hne
        rw [List.cons_append, List.lookup_cons, this]
        exact ih'

theorem logId_of_params (decode : Str → Str) (semi : Bool) (base frag id : Str) (before after : List Str)
    (hb : '?' ∉ base) (hb' : '#' ∉ base) (hf : frag = [] ∨ ∃ r, frag = '#' :: r)
    (hid : id ≠ []) (hid1 : ∀ c ∈ id, c ∉ ['&', ';', '#', '+', '%'])
    (h1 : ∀ p ∈ before, Extra (unquotePlus decode) p) (h2 : ∀ p ∈ after, '&' ∉ p ∧ ';' ∉ p ∧ '#' ∉ p) :
    logIdFromUrl decode semi (base ++ '?' :: joinWith '&' (before ++ ("log=".toList ++ id) :: after) ++ frag) = .ok id := by
  have hn : ∀ c ∈ ['&', ';', '#', '+', '%'], c ∉ id := fun c hc h => hid1 c h hc
  have hlog : ∀ c ∈ ['&', ';', '#', '+', '%'], c ∉ "log=".toList ++ id := by
    intro c hc h
    rcases List.mem_append.1 h with h | h
    · exact (by decide : ∀ c ∈ ['&', ';', '#', '+', '%'], c ∉ "log=".toList) c hc h
    · exact hn c hc h
  have hall : ∀ p ∈ before ++ ("log=".toList ++ id) :: after, '&' ∉ p ∧ ';' ∉ p ∧ '#' ∉ p := by
    intro p hp
    simp only [List.mem_append, List.mem_cons] at hp
    rcases hp with hp | rfl | hp
    · have := h1 p hp; exact ⟨this.1, this.2.1, this.2.2.1⟩
    · exact ⟨hlog _ (by decide), hlog _ (by decide), hlog _ (by decide)⟩
    · exact h2 p hp
  unfold logIdFromUrl
  rw [urlQuery_of _ _ _ hb hb' (mem_joinWith (by decide) fun p hp => (hall p hp).2.2) hf]
  unfold parseQsl
  rw [queryPieces_join _ _ (by simp) (fun p hp => (hall p hp).1) (fun p hp => (hall p hp).2.1)]
  rw [List.filterMap_append, lookup_filterMap_none decode before h1, List.filterMap_cons]
  have e : ("log=".toList ++ id : Str) = "log".toList ++ '=' :: id := rfl
  have e2 : splitEq ("log=".toList ++ id) = some ("log".toList, id) := by
    rw [e]; exact splitEq_append (by decide)
  simp only [queryPair, e2, if_neg hid]
  rw [unquote_safe decode "log".toList (by decide) (by decide), unquote_safe decode id (hn _ (by decide)) (hn _ (by decide))]
  simp

/-! ### constants -/

theorem doras_append (a b : List Str) :
    doras (a ++ b) = (doras a).bind (fun x => (doras b).map (fun y => x ++ y)) := by
  induction a with
  | nil => simp [doras, Except.bind]; cases doras b <;> rfl
  | cons i a ih =>
    simp only [List.cons_append, doras]
    cases doraMap.lookup i with
    | none => rfl
    | some l =>
      simp only [ih]
      cases doras a with
      | error => rfl
      | ok x => cases doras b with
                | error => rfl
                | ok y => simp [Except.map, Except.bind]

/-- the indicators that exist -/
def indicators : List (Nat × Char) :=
  ['m', 'p', 's'].flatMap (fun s => (List.range 10).map (fun n => (n, s))) ++ (List.range 7).map (fun n => (n + 1, 'z'))

def shownOf (n : Nat) (s : Char) : List Str :=
  if s = 'z' then (if n = 4 then [txt 1 s] else if n = 7 then [txt 5 s] else [txt (n + 1) s])
  else if n = 0 then [txt 6 s] else if n = 4 then [txt 5 s, txt 0 s] else if n = 9 then [txt 1 s] else [txt (n + 1) s]

theorem dora_table : ∀ p ∈ indicators, doraMap.lookup (txt p.1 p.2) = some (shownOf p.1 p.2) := by decide +kernel

theorem dora_keys : ∀ e ∈ doraMap, ∃ p ∈ indicators, e.1 = txt p.1 p.2 := by decide +kernel

theorem shows_iff (n : Nat) (s : Char) (l : List Str) : Shows n s l ↔ (n, s) ∈ indicators ∧ l = shownOf n s := by
  constructor
  · rintro (⟨hs, h⟩ | ⟨rfl, h⟩)
    · have : s = 'm' ∨ s = 'p' ∨ s = 's' := by simpa using hs
      have hz : s ≠ 'z' := by rcases this with rfl | rfl | rfl <;> decide
      have hm : ∀ n ≤ 9, (n, s) ∈ indicators := by
        intro n hn
        unfold indicators
        apply List.mem_append_left
        rw [List.mem_flatMap]
        exact ⟨s, hs, List.mem_map.2 ⟨n, List.mem_range.2 (by omega), rfl⟩⟩
      rcases h with ⟨rfl, rfl⟩ | ⟨rfl, rfl⟩ | ⟨rfl, rfl⟩ | ⟨h1, h2, h3, rfl⟩
      · exact ⟨hm _ (by omega), by simp [shownOf, hz]⟩
      · exact ⟨hm _ (by omega), by simp [shownOf, hz]⟩
      · exact ⟨hm _ (by omega), by simp [shownOf, hz]⟩
      · exact ⟨hm _ (by omega), by
          unfold shownOf
          rw [if_neg hz, if_neg (by omega), if_neg h3, if_neg (by omega)]⟩
    · have hm : ∀ n, 1 ≤ n → n ≤ 7 → (n, 'z') ∈ indicators := by
        intro n h0 hn
        unfold indicators
        apply List.mem_append_right
        exact List.mem_map.2 ⟨n - 1, List.mem_range.2 (by omega), by simp; omega⟩
      rcases h with ⟨h1, h2, rfl⟩ | ⟨rfl, rfl⟩ | ⟨h1, h2, rfl⟩ | ⟨rfl, rfl⟩
      · exact ⟨hm _ (by omega) (by omega), by unfold shownOf; rw [if_pos rfl, if_neg (by omega), if_neg (by omega)]⟩
      · exact ⟨hm _ (by omega) (by omega), rfl⟩
      · exact ⟨hm _ (by omega) (by omega), by unfold shownOf; rw [if_pos rfl, if_neg (by omega), if_neg (by omega)]⟩
      · exact ⟨hm _ (by omega) (by omega), rfl⟩
  · rintro ⟨h, rfl⟩
    unfold indicators at h
    rcases List.mem_append.1 h with h | h
    · obtain ⟨t, ht, h⟩ := List.mem_flatMap.1 h
      obtain ⟨m, hm, h⟩ := List.mem_map.1 h
      obtain ⟨rfl, rfl⟩ := Prod.mk.inj h
      have hm := List.mem_range.1 hm
      left
      refine ⟨ht, ?_⟩
      have : t = 'm' ∨ t = 'p' ∨ t = 's' := by simpa using ht
      have hz : t ≠ 'z' := by rcases this with rfl | rfl | rfl <;> decide
      simp only [shownOf, if_neg hz]
      split
      · exact .inl ⟨‹_›, rfl⟩
      · split
        · exact .inr (.inl ⟨‹_›, rfl⟩)
        · split
          · exact .inr (.inr (.inl ⟨‹_›, rfl⟩))
          · exact .inr (.inr (.inr ⟨by omega, by omega, by omega, rfl⟩))
    · obtain ⟨m, hm, h⟩ := List.mem_map.1 h
      obtain ⟨rfl, rfl⟩ := Prod.mk.inj h
      have hm := List.mem_range.1 hm
      right
      refine ⟨rfl, ?_⟩
      simp only [shownOf, if_pos]
      split
      · exact .inr (.inl ⟨‹_›, rfl⟩)
      · split
        · exact .inr (.inr (.inr ⟨‹_›, rfl⟩))
        · by_cases h3 : m + 1 ≤ 3
          · exact .inl ⟨by omega, h3, rfl⟩
          · exact .inr (.inr (.inl ⟨by omega, by omega, rfl⟩))

theorem lookup_none {β : Type} (l : List (Str × β)) (k : Str) (h : ∀ e ∈ l, e.1 ≠ k) : l.lookup k = none := by
  induction l with
  | nil => rfl
  | cons e l ih =>
    have : (k == e.1) = false := by rw [beq_eq_false_iff_ne]; exact Ne.symm (h e (by simp))
    obtain ⟨a, b⟩ := e
    rw [List.lookup_cons, this]
    exact ih (fun e he => h e (by simp [he]))

/-- all tile texts that can be counted, and the counts of the computed list -/
def tileList (three aka : Bool) : List Str :=
  indicators.flatMap (fun p => List.replicate (copies three aka p.1 p.2) (txt p.1 p.2))

theorem initial_perm : ∀ three aka : Bool, (initialTiles (if three then 3 else 4) aka).Perm (tileList three aka) := by
  decide +kernel

theorem initial_eq (pn : Int) (aka : Bool) : initialTiles pn aka = initialTiles (if decide (pn = 3) = true then 3 else 4) aka := by
  unfold initialTiles
  by_cases h : pn = 3
  · simp [h]
  · simp [h]

theorem copies_zero (three aka : Bool) (n : Nat) (s : Char) (h : (n, s) ∉ indicators) : copies three aka n s = 0 := by
  unfold copies
  rw [if_neg, if_neg]
  · rintro ⟨rfl, h1, h2⟩
    apply h
    unfold indicators
    exact List.mem_append_right _ (List.mem_map.2 ⟨n - 1, List.mem_range.2 (by omega), by simp; omega⟩)
  · rintro ⟨h1, h2⟩
    apply h
    unfold indicators
    apply List.mem_append_left
    rw [List.mem_flatMap]
    exact ⟨s, h1, List.mem_map.2 ⟨n, List.mem_range.2 (by omega), rfl⟩⟩

theorem txt_inj : ∀ p ∈ indicators, ∀ q ∈ indicators, txt p.1 p.2 = txt q.1 q.2 → p = q := by decide +kernel

theorem indicators_nodup : indicators.Nodup := by decide +kernel

theorem count_flatMap_txt (f : Nat × Char → Nat) (l : List (Nat × Char)) (hl : ∀ p ∈ l, p ∈ indicators) (hn : l.Nodup)
    (p : Nat × Char) (hp : p ∈ indicators) :
    (l.flatMap (fun q => List.replicate (f q) (txt q.1 q.2))).count (txt p.1 p.2) = if p ∈ l then f p else 0 := by
  induction l with
  | nil => simp
  | cons q l ih =>
    rw [List.nodup_cons] at hn
    rw [List.flatMap_cons, List.count_append, ih (fun r hr => hl r (by simp [hr])) hn.2, List.count_replicate]
    by_cases h : q = p
    · subst h
      simp [hn.1]
    · have : txt q.1 q.2 ≠ txt p.1 p.2 := fun e => h (txt_inj q (hl q (by simp)) p hp e)
      simp [this, Ne.symm h]

theorem initial_count (pn : Int) (aka : Bool) (p : Nat × Char) (hp : p ∈ indicators) :
    (initialTiles pn aka).count (txt p.1 p.2) = copies (decide (pn = 3)) aka p.1 p.2 := by
  rw [initial_eq, (initial_perm (decide (pn = 3)) aka).count_eq]
  unfold tileList
  rw [count_flatMap_txt (fun p => copies (decide (pn = 3)) aka p.1 p.2) indicators (fun _ h => h) indicators_nodup p hp, if_pos hp]

theorem initial_mem (pn : Int) (aka : Bool) (t : Str) (h : t ∈ initialTiles pn aka) : ∃ p ∈ indicators, t = txt p.1 p.2 := by
  rw [initial_eq, (initial_perm (decide (pn = 3)) aka).mem_iff] at h
  obtain ⟨p, hp, h⟩ := List.mem_flatMap.1 h
  exact ⟨p, hp, (List.mem_replicate.1 h).2⟩

end Verif.Proofs
