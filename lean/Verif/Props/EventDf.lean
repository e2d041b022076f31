import Verif.Proofs.EventDf

/-!
C71: the table of the events of a record.
-/
namespace Verif.Props
open Verif.Py Verif.Model Verif.Spec Verif.Proofs

/-- **C71.** The rows about event `i` are, in this order: for a tag of letters and a number, the number and the letters,
    then the attributes (nothing at all if numbered tags are to be left out); for any other tag the tag and the
    attributes. -/
theorem C71_rows (abstract : Bool) (events : List Event) (i : Nat) (e : Event) (hi : events[i]? = some e) (he : Element e) :
    (∀ name number, NumberedAs e.tag name number →
      (eventDf abstract events).filter (fun r => decide (r.index = i)) =
        if abstract then [] else
          ⟨i, name, "<tag_extra>".toList, number⟩ :: ⟨i, name, "<tag>".toList, name⟩ :: e.attrib.map (fun a => ⟨i, name, a.1, a.2⟩)) ∧
    ((¬ ∃ name number, NumberedAs e.tag name number) →
      (eventDf abstract events).filter (fun r => decide (r.index = i)) =
        ⟨i, e.tag, "<tag>".toList, e.tag⟩ :: e.attrib.map (fun a => ⟨i, e.tag, a.1, a.2⟩)) := by
  have h := dfFrom_filter abstract events 0 i
  rw [hi] at h
  simp only [Nat.zero_add] at h
  refine ⟨?_, ?_⟩
  · intro name number hn
    unfold eventDf
    rw [h]
    obtain ⟨h1, h2⟩ := numbered_rows he hn i
    cases abstract
    · simpa using h2
    · simpa using h1
  · intro hn
    unfold eventDf
    rw [h, plain_rows he hn]
    rfl

/-- **C71.** Rows come in the order of the events, and every row is about one of them. -/
theorem C71_order (abstract : Bool) (events : List Event) :
    ((eventDf abstract events).map DfRow.index).Pairwise (· ≤ ·) ∧ ∀ r ∈ eventDf abstract events, r.index < events.length := by
  refine ⟨dfFrom_sorted abstract events 0, ?_⟩
  intro r hr
  have := dfFrom_ge abstract events 0 r hr
  omega

/-- **C71.** With numbered tags kept, no two records have the same table. -/
theorem C71_injective (a b : List Event) (ha : ∀ e ∈ a, Element e) (hb : ∀ e ∈ b, Element e)
    (h : eventDf false a = eventDf false b) : a = b := by
  apply List.ext_getElem?
  intro i
  have h1 := dfFrom_filter false a 0 i
  have h2 := dfFrom_filter false b 0 i
  unfold eventDf at h
  rw [h, h2] at h1
  simp only [Nat.zero_add] at h1
  cases hx : a[i]? with
  | none =>
    cases hy : b[i]? with
    | none => rfl
    | some y =>
      rw [hx, hy] at h1
      exact absurd h1 (rows_ne_nil (hb y (List.mem_of_getElem? hy)) i)
  | some x =>
    cases hy : b[i]? with
    | none =>
      rw [hx, hy] at h1
      exact absurd h1.symm (rows_ne_nil (ha x (List.mem_of_getElem? hx)) i)
    | some y =>
      rw [hx, hy] at h1
      rw [rows_event (hb y (List.mem_of_getElem? hy)) (ha x (List.mem_of_getElem? hx)) i h1]

example : NumberedAs "T33".toList "T".toList "33".toList ∧ ¬ (∃ a b, NumberedAs "INIT".toList a b) := by
  constructor
  · refine ⟨?_, ?_, ?_, ?_, ?_⟩ <;> decide +kernel
  · rintro ⟨a, b, h⟩
    have := numbered_lastNum h
    rw [show lastNum "INIT".toList = none by decide +kernel] at this
    cases this
example : Element ⟨"REACH".toList, [("who".toList, "2".toList), ("step".toList, "1".toList)]⟩ := by
  refine ⟨?_, ?_, ?_⟩ <;> decide +kernel

end Verif.Props
