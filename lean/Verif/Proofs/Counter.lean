import Verif.Py.Counter

set_option linter.unusedSectionVars false

namespace Verif.Py.Counter
variable {α κ : Type} [Keyed α κ] [DecidableEq κ]

@[simp] theorem get_nil (k : κ) : get ([] : Counter α) k = 0 := rfl
theorem get_cons (a : α) (n : Int) (c : Counter α) (k : κ) :
    get ((a, n) :: c) k = if view a = k then n else get c k := rfl
@[simp] theorem keys_nil : keys ([] : Counter α) = [] := rfl
@[simp] theorem keys_cons (e : α × Int) (c : Counter α) : keys (e :: c) = view e.1 :: keys c := rfl
@[simp] theorem total_nil : total ([] : Counter α) = 0 := rfl
@[simp] theorem total_cons (e : α × Int) (c : Counter α) : total (e :: c) = e.2 + total c := by
  simp [total]
@[simp] theorem WF_nil : WF ([] : Counter α) := by simp [WF]
theorem WF_cons (e : α × Int) (c : Counter α) :
    WF (e :: c) ↔ view e.1 ∉ keys c ∧ WF c := by simp [WF]

theorem get_of_not_mem {c : Counter α} {k : κ} (h : k ∉ keys c) : get c k = 0 := by
  induction c with
  | nil => rfl
  | cons e c ih =>
    obtain ⟨a, n⟩ := e
    simp at h
    rw [get_cons, if_neg (fun h' => h.1 h'.symm), ih h.2]

theorem mem_keys_of_get_ne {c : Counter α} {k : κ} (h : get c k ≠ 0) : k ∈ keys c := by
  by_cases hm : k ∈ keys c
  · exact hm
  · exact absurd (get_of_not_mem hm) h

theorem has_iff {c : Counter α} {k : κ} : has c k = true ↔ k ∈ keys c := by
  induction c with
  | nil => simp [has]
  | cons e c ih =>
    obtain ⟨a, n⟩ := e
    simp only [has, keys_cons, List.mem_cons]
    by_cases h : view a = k
    · simp [h]
    · have h2 : ¬ k = view a := fun h' => h h'.symm
      simp [h, ih, h2]

theorem mem_keys {c : Counter α} {k : κ} : k ∈ keys c ↔ ∃ e ∈ c, view e.1 = k := by
  simp [keys]

theorem get_of_mem {c : Counter α} (hw : WF c) {e : α × Int} (he : e ∈ c) :
    get c (view e.1) = e.2 := by
  induction c with
  | nil => simp at he
  | cons f c ih =>
    obtain ⟨a, n⟩ := f
    rw [WF_cons] at hw
    rw [get_cons]
    rcases List.mem_cons.1 he with h | h
    · subst h; simp
    · have : view e.1 ∈ keys c := mem_keys.2 ⟨e, h, rfl⟩
      rw [if_neg (fun h' => hw.1 (by rw [h']; exact this))]
      exact ih hw.2 h

theorem exists_of_mem_keys {c : Counter α} (hw : WF c) {k : κ} (h : k ∈ keys c) :
    ∃ e ∈ c, view e.1 = k ∧ e.2 = get c k := by
  obtain ⟨e, he, rfl⟩ := mem_keys.1 h
  exact ⟨e, he, rfl, (get_of_mem hw he).symm⟩

/-! ### set -/

theorem get_set (c : Counter α) (a : α) (n : Int) (k : κ) :
    get (set c a n) k = if view a = k then n else get c k := by
  induction c with
  | nil => simp [set, get]
  | cons e c ih =>
    obtain ⟨b, m⟩ := e
    simp only [set]
    by_cases h : view b = view a
    · simp only [h, if_true, get_cons]
      by_cases h2 : view a = k <;> simp [h2]
    · simp only [h, if_false, get_cons, ih]
      by_cases h2 : view b = k
      · simp only [h2, if_true]
        rw [if_neg]; intro h3; exact h (h2.trans h3.symm)
      · simp [h2]

theorem keys_set (c : Counter α) (a : α) (n : Int) :
    keys (set c a n) = if view a ∈ keys c then keys c else keys c ++ [view a] := by
  induction c with
  | nil => simp [set]
  | cons e c ih =>
    obtain ⟨b, m⟩ := e
    simp only [set]
    by_cases h : view b = view a
    · simp [h]
    · have h' : ¬ view a = view b := fun h' => h h'.symm
      simp only [h, if_false, keys_cons, ih, List.mem_cons, h', false_or]
      split <;> simp

theorem mem_keys_set {c : Counter α} {a : α} {n : Int} {k : κ} :
    k ∈ keys (set c a n) ↔ k ∈ keys c ∨ k = view a := by
  rw [keys_set]
  split
  · constructor
    · exact Or.inl
    · rintro (h | rfl) <;> assumption
  · simp

theorem WF_set {c : Counter α} (h : WF c) (a : α) (n : Int) : WF (set c a n) := by
  unfold WF at *
  rw [keys_set]
  split
  · exact h
  · rename_i hn
    rw [List.nodup_append]
    refine ⟨h, by simp, ?_⟩
    intro x hx y hy
    simp at hy
    subst hy
    intro h'; subst h'; exact hn hx

/-! ### addLoop / subtract -/

theorem WF_foldl_set {β : Type} (d : List β) (f : β → α) (g : Counter α → β → Int) {c : Counter α}
    (h : WF c) : WF (d.foldl (fun c e => c.set (f e) (g c e)) c) := by
  induction d generalizing c with
  | nil => simpa
  | cons e d ih => exact ih (WF_set h _ _)

theorem mem_keys_foldl_set {β : Type} (d : List β) (f : β → α) (g : Counter α → β → Int)
    {c : Counter α} {k : κ} :
    k ∈ keys (d.foldl (fun c e => c.set (f e) (g c e)) c) ↔ k ∈ keys c ∨ ∃ e ∈ d, k = view (f e) := by
  induction d generalizing c with
  | nil => simp
  | cons e d ih =>
    simp only [List.foldl_cons, ih, mem_keys_set, List.mem_cons]
    constructor
    · rintro ((h | h) | ⟨e', h, h'⟩)
      · exact Or.inl h
      · exact Or.inr ⟨e, Or.inl rfl, h⟩
      · exact Or.inr ⟨e', Or.inr h, h'⟩
    · rintro (h | ⟨e', rfl | h, h'⟩)
      · exact Or.inl (Or.inl h)
      · exact Or.inl (Or.inr h')
      · exact Or.inr ⟨e', h, h'⟩

theorem WF_addLoop {c : Counter α} (h : WF c) (d : Counter α) : WF (addLoop c d) :=
  WF_foldl_set d _ _ h
theorem WF_subtract {c : Counter α} (h : WF c) (d : Counter α) : WF (subtract c d) :=
  WF_foldl_set d _ _ h
theorem WF_assignLoop {c : Counter α} (h : WF c) (d : Counter α) : WF (assignLoop c d) :=
  WF_foldl_set d _ _ h
theorem WF_ofIter (l : List α) : WF (ofIter l) := WF_foldl_set l _ _ WF_nil

theorem mem_keys_addLoop {c d : Counter α} {k : κ} :
    k ∈ keys (addLoop c d) ↔ k ∈ keys c ∨ k ∈ keys d := by
  unfold addLoop
  rw [mem_keys_foldl_set d (fun e => e.1) (fun c e => c.get (view e.1) + e.2), mem_keys (c := d)]
  simp only [eq_comm]
theorem mem_keys_subtract {c d : Counter α} {k : κ} :
    k ∈ keys (subtract c d) ↔ k ∈ keys c ∨ k ∈ keys d := by
  unfold subtract
  rw [mem_keys_foldl_set d (fun e => e.1) (fun c e => c.get (view e.1) - e.2), mem_keys (c := d)]
  simp only [eq_comm]
theorem mem_keys_ofIter {l : List α} {k : κ} :
    k ∈ keys (ofIter l) ↔ ∃ a ∈ l, k = view a := by
  unfold ofIter
  rw [mem_keys_foldl_set l (fun e => e) (fun c a => c.get (view a) + 1)]
  simp

theorem get_addLoop {c d : Counter α} (hd : WF d) (k : κ) :
    get (addLoop c d) k = get c k + get d k := by
  induction d generalizing c with
  | nil => simp [addLoop]
  | cons e d ih =>
    obtain ⟨a, n⟩ := e
    rw [WF_cons] at hd
    have : addLoop c ((a, n) :: d) = addLoop (c.set a (c.get (view a) + n)) d := rfl
    rw [this, ih hd.2, get_set, get_cons]
    by_cases h : view a = k
    · subst h
      have := get_of_not_mem hd.1
      simp_all
    · simp [h]

theorem get_subtract {c d : Counter α} (hd : WF d) (k : κ) :
    get (subtract c d) k = get c k - get d k := by
  induction d generalizing c with
  | nil => simp [subtract]
  | cons e d ih =>
    obtain ⟨a, n⟩ := e
    rw [WF_cons] at hd
    have : subtract c ((a, n) :: d) = subtract (c.set a (c.get (view a) - n)) d := rfl
    rw [this, ih hd.2, get_set, get_cons]
    by_cases h : view a = k
    · subst h
      have := get_of_not_mem hd.1
      simp_all
    · simp [h]

theorem get_foldl_count (l : List α) (c : Counter α) (k : κ) :
    get (l.foldl (fun c a => c.set a (c.get (view a) + 1)) c) k
      = get c k + ((l.map view).count k : Int) := by
  induction l generalizing c with
  | nil => simp
  | cons a l ih =>
    simp only [List.foldl_cons, ih, get_set, List.map_cons, List.count_cons, beq_iff_eq]
    by_cases h : view a = k
    · simp [h]; omega
    · simp [h]

theorem get_ofIter (l : List α) (k : κ) : get (ofIter l) k = ((l.map view).count k : Int) := by
  unfold ofIter; rw [get_foldl_count]; simp

theorem get_assignLoop {c d : Counter α} (hd : WF d) (k : κ) :
    get (assignLoop c d) k = if k ∈ keys d then get d k else get c k := by
  induction d generalizing c with
  | nil => simp [assignLoop]
  | cons e d ih =>
    obtain ⟨a, n⟩ := e
    rw [WF_cons] at hd
    have : assignLoop c ((a, n) :: d) = assignLoop (c.set a n) d := rfl
    rw [this, ih hd.2, get_set, get_cons]
    by_cases h : view a = k
    · subst h; simp [hd.1]
    · have h2 : ¬ k = view a := fun h' => h h'.symm
      simp [h, h2]

/-! ### filters -/

theorem WF_filter {c : Counter α} (h : WF c) (p : α × Int → Bool) : WF (c.filter p) := by
  unfold WF keys at *
  exact h.sublist (List.filter_sublist.map _)

theorem mem_keys_filter {c : Counter α} {p : α × Int → Bool} {k : κ} (h : k ∈ keys (c.filter p)) :
    k ∈ keys c := by
  rw [mem_keys] at *
  obtain ⟨e, he, hk⟩ := h
  exact ⟨e, (List.mem_filter.1 he).1, hk⟩

theorem get_filter {c : Counter α} (h : WF c) (p : α × Int → Bool) (q : κ → Int → Bool)
    (hq : ∀ e, p e = q (view e.1) e.2) (k : κ) :
    get (c.filter p) k = if k ∈ keys c ∧ q k (get c k) = true then get c k else 0 := by
  induction c with
  | nil => simp
  | cons e c ih =>
    obtain ⟨a, n⟩ := e
    rw [WF_cons] at h
    have ih := ih h.2
    rw [List.filter_cons]
    by_cases hk : view a = k
    · subst hk
      have h0 : get (c.filter p) (view a) = 0 := get_of_not_mem (fun h' => h.1 (mem_keys_filter h'))
      rw [hq]
      simp only [keys_cons, get_cons, List.mem_cons, true_or, true_and, if_true]
      split
      · simp [get_cons]
      · exact h0
    · have hk' : ¬ k = view a := fun h' => hk h'.symm
      simp only [keys_cons, get_cons, List.mem_cons, hk, hk', false_or, if_false]
      split
      · rw [get_cons, if_neg hk, ih]
      · exact ih

theorem get_del {c : Counter α} (h : WF c) (k k' : κ) :
    get (del c k) k' = if k = k' then 0 else get c k' := by
  unfold del
  rw [get_filter h _ (fun x _ => decide (x ≠ k)) (fun _ => rfl)]
  by_cases hk : k = k'
  · subst hk; simp
  · by_cases hm : k' ∈ keys c
    · have h2 : ¬ k' = k := fun h' => hk h'.symm
      simp [hk, hm, h2]
    · simp [hm, get_of_not_mem hm]

theorem WF_del {c : Counter α} (h : WF c) (k : κ) : WF (del c k) := WF_filter h _
theorem WF_keepPositive {c : Counter α} (h : WF c) : WF (keepPositive c) := WF_filter h _
theorem WF_isub {c : Counter α} (h : WF c) (d : Counter α) : WF (isub c d) :=
  WF_keepPositive (WF_subtract h d)
theorem WF_iadd {c : Counter α} (h : WF c) (d : Counter α) : WF (iadd c d) :=
  WF_keepPositive (WF_addLoop h d)

theorem mem_keys_del {c : Counter α} {k k' : κ} : k' ∈ keys (del c k) ↔ k' ∈ keys c ∧ k' ≠ k := by
  unfold del
  simp only [mem_keys, List.mem_filter, decide_eq_true_eq]
  constructor
  · rintro ⟨e, ⟨h1, h2⟩, rfl⟩; exact ⟨⟨e, h1, rfl⟩, h2⟩
  · rintro ⟨⟨e, h1, rfl⟩, h2⟩; exact ⟨e, ⟨h1, h2⟩, rfl⟩

theorem get_keepPositive {c : Counter α} (h : WF c) (k : κ) :
    get (keepPositive c) k = max 0 (get c k) := by
  unfold keepPositive
  rw [get_filter h _ (fun _ n => decide (0 < n)) (fun _ => rfl)]
  by_cases hm : k ∈ keys c
  · simp [hm]; split <;> omega
  · simp [hm, get_of_not_mem hm]

theorem get_isub {c d : Counter α} (hc : WF c) (hd : WF d) (k : κ) :
    get (isub c d) k = max 0 (get c k - get d k) := by
  unfold isub; rw [get_keepPositive (WF_subtract hc d), get_subtract hd]

theorem get_iadd {c d : Counter α} (hc : WF c) (hd : WF d) (k : κ) :
    get (iadd c d) k = max 0 (get c k + get d k) := by
  unfold iadd; rw [get_keepPositive (WF_addLoop hc d), get_addLoop hd]

theorem get_pos {c : Counter α} (h : WF c) (k : κ) : get (pos c) k = max 0 (get c k) :=
  get_keepPositive h k

theorem WF_pos {c : Counter α} (h : WF c) : WF (pos c) := WF_filter h _

theorem keys_keepPositive_mem {c : Counter α} (h : WF c) {k : κ} :
    k ∈ keys (keepPositive c) ↔ 0 < get c k := by
  constructor
  · intro hm
    obtain ⟨e, he, rfl⟩ := mem_keys.1 hm
    obtain ⟨h1, h2⟩ := List.mem_filter.1 he
    rw [get_of_mem h h1]; simpa using h2
  · intro h'
    have : k ∈ keys c := mem_keys_of_get_ne (by omega)
    obtain ⟨e, he, rfl, hv⟩ := exists_of_mem_keys h this
    exact mem_keys.2 ⟨e, List.mem_filter.2 ⟨he, by simp; omega⟩, rfl⟩

/-! ### filterMap with unchanged keys -/

theorem keys_filterMap_sublist (c : Counter α) (f : α → Int → Option Int) :
    (keys (c.filterMap (fun e => (f e.1 e.2).map (fun m => (e.1, m))))).Sublist (keys c) := by
  induction c with
  | nil => simp
  | cons e c ih =>
    rw [List.filterMap_cons]
    cases h : f e.1 e.2 with
    | none => simp; exact ih.cons _
    | some m => simp [ih]

theorem get_filterMap {c : Counter α} (h : WF c) (f : α → Int → Option Int)
    (g : κ → Int → Option Int) (hg : ∀ a n, f a n = g (view a) n) (k : κ) :
    get (c.filterMap (fun e => (f e.1 e.2).map (fun m => (e.1, m)))) k
      = if k ∈ keys c then (g k (get c k)).getD 0 else 0 := by
  induction c with
  | nil => simp
  | cons e c ih =>
    obtain ⟨a, n⟩ := e
    rw [WF_cons] at h
    have ih := ih h.2
    rw [List.filterMap_cons]
    by_cases hk : view a = k
    · subst hk
      have h0 : get (c.filterMap (fun e => (f e.1 e.2).map (fun m => (e.1, m)))) (view a) = 0 :=
        get_of_not_mem (fun h' => h.1 ((keys_filterMap_sublist c f).subset h'))
      simp only [hg, keys_cons, get_cons, List.mem_cons, true_or, if_true]
      cases hh : g (view a) n with
      | none => simpa [hg] using h0
      | some m => simp [get_cons]
    · have hk' : ¬ k = view a := fun h' => hk h'.symm
      simp only [keys_cons, get_cons, List.mem_cons, hk, hk', false_or, if_false]
      cases hh : f a n with
      | none => simpa using ih
      | some m => simpa [get_cons, hk] using ih

theorem neg_eq (c : Counter α) : neg c =
    c.filterMap (fun e => ((fun (_ : α) (n : Int) => if n < 0 then some (0 - n) else none) e.1 e.2).map
      (fun m => (e.1, m))) := by
  unfold neg
  congr 1
  funext e
  by_cases h : e.2 < 0 <;> simp [h]

theorem WF_neg {c : Counter α} (h : WF c) : WF (neg c) := by
  unfold WF at *
  rw [neg_eq]
  exact h.sublist (keys_filterMap_sublist c (fun (_ : α) (n : Int) => if n < 0 then some (0 - n) else none))

theorem get_neg {c : Counter α} (h : WF c) (k : κ) : get (neg c) k = max 0 (- get c k) := by
  rw [neg_eq, get_filterMap h _ (fun _ n => if n < 0 then some (0 - n) else none) (fun _ _ => rfl)]
  by_cases hm : k ∈ keys c
  · simp only [hm, if_true]
    split <;> simp <;> omega
  · simp [hm, get_of_not_mem hm]

theorem mem_keys_neg {c : Counter α} (h : WF c) {k : κ} : k ∈ keys (neg c) ↔ get c k < 0 := by
  constructor
  · intro hm
    obtain ⟨e, he, rfl⟩ := mem_keys.1 hm
    unfold neg at he
    obtain ⟨e', h1, h2⟩ := List.mem_filterMap.1 he
    split at h2
    · rename_i hlt
      simp at h2; subst h2
      simpa [get_of_mem h h1] using hlt
    · simp at h2
  · intro h'
    exact mem_keys_of_get_ne (by rw [get_neg h]; omega)

/-! ### totals -/

theorem perm_sum {l l' : List Int} (h : l.Perm l') : l.sum = l'.sum := by
  induction h with
  | nil => rfl
  | cons x _ ih => simp [ih]
  | swap x y l => simp; omega
  | trans _ _ ih1 ih2 => exact ih1.trans ih2

theorem sum_eq_of_keys {c : Counter α} (h : WF c) (f : Int → Int) (hf : f 0 = 0)
    (L : List κ) (hL : L.Nodup) (hsub : ∀ k ∈ keys c, k ∈ L) :
    (c.map (fun e => f e.2)).sum = (L.map (fun k => f (get c k))).sum := by
  induction c generalizing L with
  | nil =>
    simp only [List.map_nil, List.sum_nil, get_nil, hf]
    clear hL hsub
    induction L with
    | nil => rfl
    | cons x L ih => simp [← ih]
  | cons e c ih =>
    obtain ⟨a, n⟩ := e
    rw [WF_cons] at h
    have hin : view a ∈ L := hsub _ (by simp)
    have hsplit := List.perm_cons_erase hin
    have hsum : ∀ g : κ → Int, (L.map g).sum = g (view a) + ((L.erase (view a)).map g).sum := by
      intro g
      have := perm_sum (hsplit.map g)
      simpa using this
    rw [hsum, List.map_cons, List.sum_cons, get_cons, if_pos rfl]
    congr 1
    rw [ih h.2 (L.erase (view a)) (hL.erase _)]
    · congr 1
      apply List.map_congr_left
      intro x hx
      have : x ≠ view a := (List.Nodup.mem_erase_iff hL).1 hx |>.1
      rw [get_cons, if_neg (fun h' => this h'.symm)]
    · intro k hk
      refine (List.Nodup.mem_erase_iff hL).2 ⟨?_, hsub _ (by simp [hk])⟩
      rintro rfl
      exact h.1 hk

theorem total_eq_sum {c : Counter α} (h : WF c) (L : List κ) (hL : L.Nodup)
    (hsub : ∀ k ∈ keys c, k ∈ L) : total c = (L.map (fun k => get c k)).sum :=
  sum_eq_of_keys h id rfl L hL hsub

end Verif.Py.Counter
