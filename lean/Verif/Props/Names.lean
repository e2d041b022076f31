import Verif.Proofs.Unquote
import Verif.Proofs.Utf8
import Verif.Props.Header
import Verif.Props.Frontend

/-!
C91: the names of players.
-/
namespace Verif.Props
open Verif.Py Verif.Model Verif.Spec Verif.Proofs

/-- **C91.** Decoding gives back the text, whatever percent-encoding of it was written: any characters as their UTF-8
    bytes, in small or capital hexadecimal digits, the others left as they are. -/
theorem C91_decode (s t : Str) (h : PercentEncodes s t) : unquote t = s := unquote_encodes h

/-- **C91.** So different names are never written alike. -/
theorem C91_inj (s s' t : Str) (h : PercentEncodes s t) (h' : PercentEncodes s' t) : s = s' :=
  (unquote_encodes h).symm.trans (unquote_encodes h')

theorem name_attribute {un : Event} {names : List Str}
    (h2 : ["n0", "n1", "n2", "n3"].map (fun a => un.get a.toList) = names.map Except.ok) {k : Nat} {w : Str}
    (k2 : names[k]? = some w) : un.get ("n".toList ++ natDigits k) = .ok w := by
  have hk : k < 4 := by
    have := (List.getElem?_eq_some_iff.1 k2).1
    have e := congrArg List.length h2
    simp at e
    omega
  have := congrArg (fun l => l[k]?) h2
  simp only [List.getElem?_map, k2, Option.map_some] at this
  have key : ∀ k : Fin 4, (["n0", "n1", "n2", "n3"][k.val]?).map String.toList = some ("n".toList ++ natDigits k.val) := by
    decide +kernel
  have kk := key ⟨k, hk⟩
  simp only at kk
  cases hx : ["n0", "n1", "n2", "n3"][k]? with
  | none => rw [hx] at kk; cases kk
  | some a =>
    rw [hx] at kk this
    simp only [Option.map_some, Option.some.injEq] at kk this
    rw [← kk]
    exact this

/-- **C91.** The players of a record have the names that the first `UN` element encodes. -/
theorem C91_record (es : List Event) (r : TRecord) (h : TRecord.make es = .ok r) (k : Nat) (p : TPlayer)
    (hp : r.players[k]? = some p) :
    p.index = k ∧ ∃ un written, es.find? (fun e => decide (e.tag = "UN".toList)) = some un ∧
      un.get ("n".toList ++ natDigits k) = .ok written ∧ ∀ s, PercentEncodes s written → p.name = s := by
  obtain ⟨un, names, dan, rate, sx, count, h1, h2, _, _, _, _, h7, h8⟩ := C75_players es r h
  obtain ⟨k1, k2, _⟩ := h8 k p hp
  exact ⟨k1, un, p.nameEncoded, h1, name_attribute h2 k2, fun s hs => unquote_encodes hs⟩

/-- **C91.** The converted name of a player is the one that the element `UN` encodes. -/
theorem C91_converted (strict : Bool) (ctx ctx' : Ctx) (t : TEvent) (out : List Cmd)
    (h : callTranslator strict ctx t = .ok (ctx', out)) (ht : t.ev.tag = "UN".toList) (p : Nat) (hp : p < 4)
    (s written : Str) (hw : t.ev.attrib.lookup ("n".toList ++ natDigits p) = some written)
    (hb : written.all isSpace = false) (hs : PercentEncodes s written) :
    ctx'.vals.get (ofPlayer p "name") = .str s := by
  rw [((C84_player strict ctx ctx' t out h ht p hp).2 written hw hb).1, unquote_encodes hs]

/-- **C91.** Every text is decoded, in exactly one way: characters beyond ASCII stay, `%` and two hexadecimal digits are a byte,
    bytes that are those of a character give it, and where they are not, the longest beginning of a character, or else one
    byte, becomes one replacement character.  Overlong bytes, surrogates and bytes beyond the last character are never taken
    for characters. -/
theorem C91_every (t s : Str) : unquote t = s ↔ DecodesTo t s := unquote_decodes t s

/-- overlong bytes of `/`, a surrogate, a value too large and a character cut short by another one -/
example : DecodesTo "%C0%AF%ED%A0%80%F4%90%80%80%E4%BD%E4%BD%8D位".toList
    (List.replicate 10 (Char.ofNat 0xFFFD) ++ "位位".toList) := (C91_every _ _).1 (by decide +kernel)

/-- **C91.** So the name of a player of a record is what the text of the element is decoded to, whatever text it is. -/
theorem C91_name (es : List Event) (r : TRecord) (h : TRecord.make es = .ok r) (k : Nat) (p : TPlayer)
    (hp : r.players[k]? = some p) :
    ∃ un written, es.find? (fun e => decide (e.tag = "UN".toList)) = some un ∧
      un.get ("n".toList ++ natDigits k) = .ok written ∧ ∀ s, p.name = s ↔ DecodesTo written s := by
  obtain ⟨un, names, dan, rate, sx, count, h1, h2, _, _, _, _, h7, h8⟩ := C75_players es r h
  obtain ⟨k1, k2, _⟩ := h8 k p hp
  refine ⟨un, p.nameEncoded, h1, ?_, fun s => unquote_decodes p.nameEncoded s⟩
  exact name_attribute h2 k2

/-- **C91.** Bytes that are no text are shown as replacement characters, so names that are not encoded text may be shown
    alike. -/
theorem C91_not_text : unquote "%FF%E3%81A".toList = unquote "%FE%F0%9F%8CA".toList ∧
    unquote "%FF%E3%81A".toList = [replacementChar, replacementChar, 'A'] := by decide +kernel

/-! Encodings exist, in several ways. -/

def hexUp (n : Nat) : Char := ("0123456789ABCDEF".toList)[n]?.getD '0'

def encodeAll (s : Str) : Str :=
  s.flatMap (fun c => (String.utf8EncodeChar c).flatMap (fun b => ['%', hexUp (b.toNat / 16), hexUp (b.toNat % 16)]))

theorem hexUp_digit : ∀ n : Fin 16, ("0123456789ABCDEF".toList)[n.val]? = some (hexUp n.val) := by decide +kernel

theorem encodeAll_encodes (s : Str) : PercentEncodes s (encodeAll s) := by
  induction s with
  | nil => exact .nil
  | cons c s ih =>
    refine .coded ?_ ih
    show WritesBytes _ ((String.utf8EncodeChar c).flatMap _)
    generalize String.utf8EncodeChar c = bs
    induction bs with
    | nil => exact .nil
    | cons b bs ihb =>
      have hb := b.toNat_lt
      exact .cons (.inr (hexUp_digit ⟨b.toNat / 16, by omega⟩)) (.inr (hexUp_digit ⟨b.toNat % 16, by omega⟩)) ihb

example : encodeAll "天鳳%位".toList = "%E5%A4%A9%E9%B3%B3%25%E4%BD%8D".toList := by decide +kernel

/-- a name with a letter left, a coded character in small digits, a stray percent sign and a coded emoji -/
example : PercentEncodes "A位 5% 🀄".toList "A%e4%bd%8d 5%%20%F0%9F%80%84".toList := by
  have e1 : WritesBytes (String.utf8EncodeChar '位') "%e4%bd%8d".toList :=
    .cons (.inl (by decide +kernel)) (.inl (by decide +kernel)) (.cons (.inl (by decide +kernel)) (.inl (by decide +kernel))
      (.cons (.inl (by decide +kernel)) (.inl (by decide +kernel)) .nil))
  have e2 : WritesBytes (String.utf8EncodeChar ' ') "%20".toList :=
    .cons (.inl (by decide +kernel)) (.inl (by decide +kernel)) .nil
  have e3 : WritesBytes (String.utf8EncodeChar '🀄') "%F0%9F%80%84".toList :=
    .cons (.inr (by decide +kernel)) (.inr (by decide +kernel)) (.cons (.inr (by decide +kernel)) (.inr (by decide +kernel))
      (.cons (.inr (by decide +kernel)) (.inr (by decide +kernel))
        (.cons (.inr (by decide +kernel)) (.inr (by decide +kernel)) .nil)))
  refine .plain (by decide) (.coded e1 (t := " 5%%20%F0%9F%80%84".toList) (.plain (by decide) (.plain (by decide) (.stray ?_
    (.coded e2 (t := "%F0%9F%80%84".toList) (.coded e3 (t := []) .nil))))))
  intro a b r m n hr hx
  have ha : '%' = a := (List.cons.inj hr).1
  subst ha
  have := (hex_value hx.1).1
  rw [show hexValue '%' = none by decide] at this
  cases this

end Verif.Props
