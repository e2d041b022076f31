import Verif.Proofs.Xml
import Verif.Model.Document
import Verif.Spec.Frame

/-!
# C99: the text of a record

`from_url` and `from_file` (`mahjong/record/reader.py:193-198`) read a document; `str(event)` (`mahjong/record/utils/event.py:109-112`)
writes an element.
-/
namespace Verif.Props
open Verif.Py Verif.Model Verif.Spec Verif.Proofs

/-- **C99.** The reader accepts exactly the texts of documents, and reads the element that the text is a text of. -/
theorem C99_reads (t : Str) (e : Elem) : xmlParse t = some e ↔ DocText e t := parse_iff t e

/-- **C99.** No text has two readings. -/
theorem C99_one_reading (t : Str) (e e' : Elem) (h : DocText e t) (h' : DocText e' t) : e = e' := by
  have := (parse_iff t e).2 h
  rw [(parse_iff t e').2 h'] at this
  exact (Option.some.inj this).symm

/-- **C99.** The record made of the text of a document is made of the tags and attributes of the children of its root, in their
    order.  How the text is laid out (declaration, white space, quotes, references) makes no difference.  A text that is no
    document makes no record. -/
theorem C99_record (t : Str) :
    (∀ tag attrib kids, DocText (.mk tag attrib kids) t →
      recordOfText t = some (TRecord.make (kids.map (fun k => ⟨k.tag, k.attrib⟩)))) ∧
    ((¬ ∃ e, DocText e t) → recordOfText t = none) := by
  constructor
  · intro tag attrib kids h
    unfold recordOfText
    rw [(parse_iff _ _).2 h]
    rfl
  · intro h
    unfold recordOfText
    cases hp : xmlParse t with
    | none => rfl
    | some e => exact absurd ⟨e, (parse_iff _ _).1 hp⟩ h

/-- **C99.** Texts of two documents whose roots have children with the same tags and attributes make the same record. -/
theorem C99_layout (t t' : Str) (e e' : Elem) (h : DocText e t) (h' : DocText e' t')
    (hk : e.children.map (fun k => (k.tag, k.attrib)) = e'.children.map (fun k => (k.tag, k.attrib))) :
    recordOfText t = recordOfText t' := by
  unfold recordOfText
  rw [(parse_iff _ _).2 h, (parse_iff _ _).2 h']
  have : eventsOf e = eventsOf e' := by
    unfold eventsOf
    have := congrArg (List.map (fun (p : Str × List (Str × Str)) => (⟨p.1, p.2⟩ : Event))) hk
    rw [List.map_map, List.map_map] at this
    exact this
  simp [this]

/-- **C99.** Whatever document is read, the tags and attribute names of its elements are names, no element has an attribute
    twice, and all characters in attribute values are characters of documents (so none is NUL). -/
theorem C99_elements (t : Str) (root : Elem) (h : xmlParse t = some root) (e : Elem) (he : e ∈ root.children) :
    IsName e.tag ∧ (e.attrib.map Prod.fst).Nodup ∧ (∀ a ∈ e.attrib, IsName a.1 ∧ ∀ c ∈ a.2, DocChar c.toNat) ∧
      Element ⟨e.tag, e.attrib⟩ := by
  obtain ⟨_, _, x, _, _, _, hE, _, _⟩ := (parse_iff _ _).1 h
  have hc := elem_clean hE
  cases hc with
  | mk _ _ _ hk =>
    have := hk e he
    cases this with
    | mk hn hd ha _ =>
      refine ⟨hn, hd, ha, hd, ?_, ?_⟩
      · intro a hma hlt
        obtain ⟨c, s, hcs, h1, h2⟩ := isName_iff.1 (ha a hma).1
        rw [hcs] at hlt
        rcases List.mem_cons.1 hlt with rfl | hlt
        · exact absurd h1 (by decide)
        · exact absurd (List.all_eq_true.1 h2 _ hlt) (by decide)
      · intro hnl
        obtain ⟨c, s, hcs, h1, h2⟩ := isName_iff.1 hn
        change '\n' ∈ _ at hnl
        dsimp only [Elem.tag] at hnl
        rw [hcs] at hnl
        rcases List.mem_cons.1 hnl with rfl | hnl
        · exact absurd h1 (by decide)
        · exact absurd (List.all_eq_true.1 h2 _ hnl) (by decide)

/-- **C99.** What `ET.tostring` writes for an element is plain ASCII and is read back as this element, whatever characters its
    attributes have. -/
theorem C99_tostring (tag : Str) (attrib : List (Str × Str)) (ht : IsName tag) (hd : (attrib.map Prod.fst).Nodup)
    (ha : ∀ a ∈ attrib, IsName a.1 ∧ ∀ c ∈ a.2, DocChar c.toNat) :
    (∀ c ∈ xmlText tag attrib, c.toNat < 128) ∧ xmlParse (xmlText tag attrib) = some (.mk tag attrib []) := by
  refine ⟨written_ascii ht (fun a h => (ha a h).1), (parse_iff _ _).2 ⟨[], [], _, [], Or.inl rfl, by intro c hc; simp at hc,
    written_elem ht hd ha, by intro c hc; simp at hc, by simp⟩⟩

/-- **C99.** `str(event)` of an event of a document is the description of the event, a colon, and a text that is read back as
    the element. -/
theorem C99_event_text (iter : List Int → List Int) (t : Str) (root : Elem) (h : xmlParse t = some root) (e : Event)
    (he : e ∈ eventsOf root) (s : Str) : eventText iter e = .ok s ↔
      ∃ d, baseText iter e = .ok d ∧ ∃ x, s = d ++ ":".toList ++ x ∧ x = xmlText e.tag e.attrib ∧
        xmlParse x = some (.mk e.tag e.attrib []) := by
  obtain ⟨k, hk, rfl⟩ := List.mem_map.1 he
  obtain ⟨h1, h2, h3, _⟩ := C99_elements t root h k hk
  have hp := (C99_tostring k.tag k.attrib h1 h2 h3).2
  unfold eventText
  cases hb : baseText iter ⟨k.tag, k.attrib⟩ with
  | error x =>
    constructor
    · intro h; cases h
    · rintro ⟨d, hd, _⟩; cases hd
  | ok d =>
    constructor
    · intro h
      refine ⟨d, rfl, xmlText k.tag k.attrib, ?_, rfl, hp⟩
      cases h
      simp
    · rintro ⟨d', hd, x, rfl, rfl, _⟩
      cases hd
      show Except.ok _ = _
      simp

/-- elements written one after the other in a root element -/
def siteText (root : Str) (events : List Event) : Str :=
  "<".toList ++ root ++ ">".toList ++ events.flatMap (fun e => xmlText e.tag e.attrib) ++ "</".toList ++ root ++ ">".toList

/-- elements the site may write: names and attributes as XML has them -/
def Writable (events : List Event) : Prop :=
  ∀ e ∈ events, IsName e.tag ∧ (e.attrib.map Prod.fst).Nodup ∧ ∀ a ∈ e.attrib, IsName a.1 ∧ ∀ c ∈ a.2, DocChar c.toNat

theorem site_document (root : Str) (hr : IsName root) (events : List Event) (he : Writable events) :
    DocText (.mk root [] (events.map (fun e => Elem.mk e.tag e.attrib []))) (siteText root events) := by
  have blank0 : Blank [] := by intro c hc; simp at hc
  have hC : ContentText (events.map (fun e => Elem.mk e.tag e.attrib [])) (events.flatMap (fun e => xmlText e.tag e.attrib)) := by
    induction events with
    | nil => exact .nil blank0
    | cons e es ih =>
      have h := he e (by simp)
      have := ContentText.cons blank0 (written_elem h.1 h.2.1 h.2.2) (ih (fun x hx => he x (by simp [hx])))
      simpa using this
  have hE := ElemText.full (as := []) hr (by simp) .nil blank0 hC blank0
  refine ⟨[], [], _, [], Or.inl rfl, blank0, hE, blank0, ?_⟩
  simp [siteText]

/-- **C99.** A record written as the site does, the elements one after the other in a root element, is the record of these
    events. -/
theorem C99_written (root : Str) (hr : IsName root) (events : List Event)
    (he : ∀ e ∈ events, IsName e.tag ∧ (e.attrib.map Prod.fst).Nodup ∧ ∀ a ∈ e.attrib, IsName a.1 ∧ ∀ c ∈ a.2, DocChar c.toNat) :
    recordOfText ("<".toList ++ root ++ ">".toList ++ events.flatMap (fun e => xmlText e.tag e.attrib) ++ "</".toList ++ root ++ ">".toList) =
      some (TRecord.make events) := by
  have := (C99_record _).1 _ _ _ (site_document root hr events he)
  simp only [List.map_map] at this
  rw [show (fun k : Elem => (⟨k.tag, k.attrib⟩ : Event)) ∘ (fun e : Event => Elem.mk e.tag e.attrib []) = id from rfl, List.map_id] at this
  exact this

set_option synthInstance.maxSize 2000 in
set_option synthInstance.maxHeartbeats 200000 in
/-- a document with a declaration, white space, both quotes, all kinds of references and nested elements -/
example : ∃ e, DocText e "<?xml version='1.0'?>\n<mjloggm ver=\"2.3\">\n<GO  type = 'a&lt;&#xE9;&quot;\nb'/>\t<T12><x></x ></T12></mjloggm>\n".toList ∧
    (e.tag, e.attrib, e.children.map (fun k => (k.tag, k.attrib, k.children.map Elem.tag))) =
      ("mjloggm".toList, [("ver".toList, "2.3".toList)],
        [("GO".toList, [("type".toList, "a<é\" b".toList)], []), ("T12".toList, [], ["x".toList])]) := by
  have h : (xmlParse "<?xml version='1.0'?>\n<mjloggm ver=\"2.3\">\n<GO  type = 'a&lt;&#xE9;&quot;\nb'/>\t<T12><x></x ></T12></mjloggm>\n".toList).map
      (fun e => (e.tag, e.attrib, e.children.map (fun k => (k.tag, k.attrib, k.children.map Elem.tag)))) =
      some ("mjloggm".toList, [("ver".toList, "2.3".toList)],
        [("GO".toList, [("type".toList, "a<é\" b".toList)], []), ("T12".toList, [], ["x".toList])]) := by decide +kernel
  obtain ⟨e, he, hv⟩ := Option.map_eq_some_iff.1 h
  exact ⟨e, (C99_reads _ _).1 he, hv⟩

/-- a value with characters that have to be written as references -/
example : let a := [("n0".toList, "a<&\"\n\tß".toList)]
    IsName "UN".toList ∧ (a.map Prod.fst).Nodup ∧ ∀ x ∈ a, IsName x.1 ∧ ∀ c ∈ x.2, DocChar c.toNat := by
  refine ⟨isName_iff.2 ⟨_, _, rfl, by decide, by decide⟩, by decide, ?_⟩
  intro x hx
  rw [List.mem_singleton] at hx
  subst hx
  refine ⟨isName_iff.2 ⟨_, _, rfl, by decide, by decide⟩, ?_⟩
  have : ∀ c ∈ "a<&\"\n\tß".toList, xmlChar c.toNat = true := by decide
  exact fun c hc => (docChar_iff _).1 (this c hc)

/-- two `<`, an attribute twice, a wrong end tag: no documents -/
example : xmlParse "<a b='<'/>".toList = none ∧ xmlParse "<a b='1' b='2'/>".toList = none ∧ xmlParse "<a></b>".toList = none ∧
    xmlParse "<a b='&nbsp;'/>".toList = none ∧ xmlParse "<a/><b/>".toList = none := by decide +kernel

end Verif.Props
