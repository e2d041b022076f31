import Verif.Model.Raw
import Verif.Props.Frame

/-!
C72: tables of Python objects.
-/
namespace Verif.Props
open Verif.Py Verif.Model Verif.Spec Verif.Proofs

/-- **C72.** A command is read back from its raw record, unless its sub scope is a text of digits, which becomes a
    number. -/
theorem C72_round_trip (c : Cmd) :
    (SubOk c.sub → Cmd.fromRaw c.toRaw = c) ∧
    (∀ n : Nat, c.sub = .text (natDigits n) → Cmd.fromRaw c.toRaw = { c with sub := .num n }) := by
  constructor
  · intro h
    have := tryInt_ok h
    cases c
    simp_all [Cmd.fromRaw, Cmd.toRaw]
  · intro n h
    have e : Sub.tryInt (.text (natDigits n)) = .num n := by
      rw [Sub.tryInt, if_pos ⟨natDigits_ne_nil n, by simpa using natDigits_all n⟩, digitsVal_natDigits]
    cases c
    simp_all [Cmd.fromRaw, Cmd.toRaw]

/-- **C72.** A raw record names the scope its property belongs to. -/
theorem C72_scope (c : Cmd) (s : Scope) (n : String) (k : PropKind) (_h : (s, n, k) ∈ kindTable) (hp : c.prop = view s n) :
    c.toRaw.scope = s := by
  show c.prop.scope = s
  rw [hp]
  rfl

/-- **C72.** Writing the commands of a record to a table, adding columns, and cleaning what was written, gives the
    table of objects made directly from the record, with the added columns beside it.  Only the rates of players are
    texts. -/
theorem C72_clean (showVal : Val → Str) (left : Ctx → TEvent → Ctx) (ctx : Ctx) (events : List TEvent)
    (hseat : ∀ t ∈ events, Seated t.ev) (written : List Rec) (h : parseSerial showVal left ctx events = .ok written)
    (columns : List (List (Str × Str))) (hl : columns.length = written.length) :
    ∃ raw cleaned, parseRaw left ctx events = .ok raw ∧ cleanTable (written.zip columns) = .ok cleaned ∧
      cleaned.length = raw.length ∧
      ∀ (k : Nat) r, raw[k]? = some r → ∃ q extra, cleaned[k]? = some (q, extra) ∧ columns[k]? = some extra ∧
        (r.property ≠ view .player "extra_level" → q = r) ∧
        (r.property = view .player "extra_level" →
          q = { r with value := .str (pyStrVal showVal r.value), state := .str (pyStrVal showVal r.state) }) := by
  unfold parseSerial at h
  simp only [bind_ok] at h
  obtain ⟨cs, h1, h2⟩ := h
  obtain ⟨m1, m2⟩ := mapM_get h2
  have key : ∀ (k : Nat) x, (written.zip columns)[k]? = some x → ∃ c w, cs[k]? = some c ∧ columns[k]? = some x.2 ∧
      cleanRow x = .ok (w, x.2) ∧ (c.prop ≠ view .player "extra_level" → w = c.toRaw) ∧
      (c.prop = view .player "extra_level" → w = { c.toRaw with value := .str (pyStrVal showVal c.value), state := .str (pyStrVal showVal c.state) }) := by
    intro k x hx
    rw [List.getElem?_zip_eq_some] at hx
    have hk : k < cs.length := by rw [← m1]; exact (List.getElem?_eq_some_iff.1 hx.1).1
    obtain ⟨r, hr, hc⟩ := m2 k cs[k] (List.getElem?_eq_getElem hk)
    rw [hx.1] at hr
    injection hr with hr
    obtain ⟨r', e1, e2, e3⟩ := C70_records showVal left false ctx events hseat cs h1 cs[k] (List.getElem_mem hk)
    rw [hc] at e1
    injection e1 with e1
    subst e1
    by_cases hp : cs[k].prop = view .player "extra_level"
    · refine ⟨cs[k], _, List.getElem?_eq_getElem hk, hx.2, ?_, fun hn => absurd hp hn, fun _ => rfl⟩
      unfold cleanRow
      rw [hr, e3 hp]
      rfl
    · refine ⟨cs[k], _, List.getElem?_eq_getElem hk, hx.2, ?_, fun _ => rfl, fun hn => absurd hn hp⟩
      unfold cleanRow
      rw [hr, e2 hp]
      rfl
  have total : ∃ cleaned, cleanTable (written.zip columns) = .ok cleaned := by
    refine mapM_total ?_
    intro x hx
    obtain ⟨k, hk⟩ := List.getElem?_of_mem hx
    obtain ⟨_, w, _, _, e, _⟩ := key k x hk
    exact ⟨_, e⟩
  obtain ⟨cleaned, hcl⟩ := total
  obtain ⟨n1, n2⟩ := mapM_get hcl
  have hlen : (written.zip columns).length = cs.length := by simp [hl, m1]
  refine ⟨rawTable cs, cleaned, ?_, hcl, ?_, ?_⟩
  · unfold parseRaw; rw [h1]; rfl
  · rw [n1, hlen]; simp [rawTable]
  · intro k r hr
    unfold rawTable at hr
    rw [List.getElem?_map] at hr
    cases hck : cs[k]? with
    | none => rw [hck] at hr; cases hr
    | some c =>
      rw [hck] at hr
      simp only [Option.map_some, Option.some.injEq] at hr
      have hkz : k < (written.zip columns).length := by rw [hlen]; exact (List.getElem?_eq_some_iff.1 hck).1
      obtain ⟨y, hy, hclean⟩ := n2 k _ (List.getElem?_eq_getElem hkz)
      obtain ⟨c', w, a1, a2, a3, a4, a5⟩ := key k _ (List.getElem?_eq_getElem hkz)
      rw [hck] at a1
      injection a1 with a1
      subst a1
      rw [a3] at hclean
      injection hclean with hclean
      subst hclean hr
      exact ⟨w, _, hy, a2, a4, a5⟩

set_option maxRecDepth 100000 in
example : ((parseSerial (fun _ => "1500".toList) (fun c _ => c) {} sampleTable).map List.length).toOption = some 132 := by decide +kernel

end Verif.Props
