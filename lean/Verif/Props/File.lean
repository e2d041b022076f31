import Verif.Props.Xml
import Verif.Props.EventDf

/-!
# C100: the table of the events of a file

`light_dataframe_from_file` (`mahjong/record/util_functions.py:54-60`).
-/
namespace Verif.Props
open Verif.Py Verif.Model Verif.Spec Verif.Proofs

theorem takeWhile_stop {p : Char → Bool} {a b : Str} {c : Char} (ha : ∀ x ∈ a, p x = true) (hc : p c = false) :
    (a ++ c :: b).takeWhile p = a ∧ (a ++ c :: b).dropWhile p = c :: b := by
  induction a with
  | nil => simp [hc]
  | cons x a ih =>
    have hx := ha x (by simp)
    have := ih (fun y hy => ha y (by simp [hy]))
    simp only [List.cons_append, List.takeWhile_cons, List.dropWhile_cons, hx, if_true, this, and_self]

theorem tail_dir (dir name : Str) (hd : dir = [] ∨ ∃ d, dir = d ++ "/".toList) (hn : '/' ∉ name) : pathTail (dir ++ name) = name := by
  have hr : ∀ x ∈ name.reverse, (decide (x ≠ '/')) = true := by
    intro x hx
    rw [List.mem_reverse] at hx
    simp only [decide_eq_true_eq]
    rintro rfl
    exact hn hx
  unfold pathTail
  rcases hd with rfl | ⟨d, rfl⟩
  · rw [List.nil_append]
    have q : ∀ l : Str, (∀ x ∈ l, (decide (x ≠ '/')) = true) → l.takeWhile (fun c => decide (c ≠ '/')) = l := by
      intro l hl
      induction l with
      | nil => rfl
      | cons y l ih => rw [List.takeWhile_cons, if_pos (hl y (by simp)), ih (fun x hx => hl x (by simp [hx]))]
    rw [q _ hr, List.reverse_reverse]
  · have e : (d ++ "/".toList ++ name).reverse = name.reverse ++ '/' :: d.reverse := by simp
    rw [e, (takeWhile_stop hr (by simp)).1, List.reverse_reverse]

/-- **C100.** The log id of a file is its name without the directory and without the extension, whatever dots are in it and
    whatever the directory is called. -/
theorem C100_log_id (dir id ext : Str) (hd : dir = [] ∨ ∃ d, dir = d ++ "/".toList) (hi : '/' ∉ id) (hne : ∃ c ∈ id, c ≠ '.')
    (he : '/' ∉ ext) (he' : '.' ∉ ext) : logIdOfPath (dir ++ id ++ ".".toList ++ ext) = id := by
  unfold logIdOfPath
  have hn : '/' ∉ id ++ ".".toList ++ ext := by simp [hi, he]
  have e : dir ++ id ++ ".".toList ++ ext = dir ++ (id ++ ".".toList ++ ext) := by simp
  rw [e, tail_dir _ _ hd hn]
  have hr : ∀ x ∈ ext.reverse, (decide (x ≠ '.')) = true := by
    intro x hx
    rw [List.mem_reverse] at hx
    simp only [decide_eq_true_eq]
    rintro rfl
    exact he' hx
  have e2 : (id ++ ".".toList ++ ext).reverse = ext.reverse ++ '.' :: id.reverse := by simp
  unfold dropExt
  rw [if_pos (by simp)]
  dsimp only
  rw [e2, (takeWhile_stop hr (by simp)).2, List.tail_cons, List.reverse_reverse, if_pos]
  rw [List.any_eq_true]
  obtain ⟨c, hc, h⟩ := hne
  exact ⟨c, hc, by simpa using h⟩

/-- **C100.** A file without an extension has its whole name as log id. -/
theorem C100_no_extension (dir id : Str) (hd : dir = [] ∨ ∃ d, dir = d ++ "/".toList) (hi : '/' ∉ id) (he : '.' ∉ id) :
    logIdOfPath (dir ++ id) = id := by
  unfold logIdOfPath
  rw [tail_dir _ _ hd hi]
  unfold dropExt
  rw [if_neg he]

/-- **C100.** The table of a file with the text of a document: every row has the log id of the file, and the rows about event `i`
    are those about the tag and the attributes of the `i`-th child of the root. -/
theorem C100_rows (abstract : Bool) (path text : Str) (root : Elem) (h : DocText root text) :
    ∃ rows, lightDf abstract path text = some rows ∧ (∀ r ∈ rows, r.2 = logIdOfPath path ∧ r.1.index < root.children.length) ∧
      ∀ i e, root.children[i]? = some e →
        (∀ name number, NumberedAs e.tag name number →
          (rows.filter (fun r => decide (r.1.index = i))).map Prod.fst =
            if abstract then [] else
              ⟨i, name, "<tag_extra>".toList, number⟩ :: ⟨i, name, "<tag>".toList, name⟩ :: e.attrib.map (fun a => ⟨i, name, a.1, a.2⟩)) ∧
        ((¬ ∃ name number, NumberedAs e.tag name number) →
          (rows.filter (fun r => decide (r.1.index = i))).map Prod.fst =
            ⟨i, e.tag, "<tag>".toList, e.tag⟩ :: e.attrib.map (fun a => ⟨i, e.tag, a.1, a.2⟩)) := by
  have hp := (C99_reads _ _).2 h
  refine ⟨_, by unfold lightDf; rw [hp]; rfl, ?_, ?_⟩
  · intro r hr
    obtain ⟨x, hx, rfl⟩ := List.mem_map.1 hr
    refine ⟨rfl, ?_⟩
    have := (C71_order abstract (eventsOf root)).2 x hx
    simpa [eventsOf] using this
  · intro i e hi
    have hE := (C99_elements text root hp e (List.mem_of_getElem? hi)).2.2.2
    have hget : (eventsOf root)[i]? = some ⟨e.tag, e.attrib⟩ := by
      unfold eventsOf
      rw [List.getElem?_map, hi]
      rfl
    have key := C71_rows abstract (eventsOf root) i _ hget hE
    have hf : (((eventDf abstract (eventsOf root)).map (fun r => (r, logIdOfPath path))).filter (fun r => decide (r.1.index = i))).map Prod.fst =
        (eventDf abstract (eventsOf root)).filter (fun r => decide (r.index = i)) := by
      rw [List.filter_map, List.map_map]
      exact List.map_id _
    rw [hf]
    exact key

/-- **C100.** With numbered tags kept, the table tells which events the document has. -/
theorem C100_tells (path path' t t' : Str) (e e' : Elem) (h : DocText e t) (h' : DocText e' t')
    (heq : (lightDf false path t).map (List.map Prod.fst) = (lightDf false path' t').map (List.map Prod.fst)) :
    e.children.map (fun k => (k.tag, k.attrib)) = e'.children.map (fun k => (k.tag, k.attrib)) := by
  have hp := (C99_reads _ _).2 h
  have hp' := (C99_reads _ _).2 h'
  unfold lightDf at heq
  rw [hp, hp'] at heq
  simp only [Option.map_some, List.map_map, Option.some.injEq] at heq
  have hid : ∀ (l : List DfRow) (p : Str), l.map (Prod.fst ∘ fun r => (r, logIdOfPath p)) = l := fun l p => List.map_id _
  rw [hid, hid] at heq
  have el : ∀ {root : Elem} {t : Str}, xmlParse t = some root → ∀ x ∈ eventsOf root, Element x := by
    intro root t hr x hx
    obtain ⟨k, hk, rfl⟩ := List.mem_map.1 hx
    exact (C99_elements t root hr k hk).2.2.2
  have hev := C71_injective _ _ (el hp) (el hp') heq
  have := congrArg (List.map (fun x : Event => (x.tag, x.attrib))) hev
  unfold eventsOf at this
  rw [List.map_map, List.map_map] at this
  exact this

/-- a path with dots in the directory and in the name -/
example : logIdOfPath "logs.d/2019.1/2019010100gm-00a9-0000-1a2b3c4d.x.xml".toList = "2019010100gm-00a9-0000-1a2b3c4d.x".toList ∧
    logIdOfPath ".xml".toList = ".xml".toList ∧ logIdOfPath "a/".toList = [] := by decide +kernel

end Verif.Props
