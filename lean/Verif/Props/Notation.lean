import Verif.Proofs.Notation

/-! Property C06: tile notation. -/
namespace Verif.Props
open Verif.Py Verif.Model Verif.Spec Verif.Proofs

/-- **C06.** `tiles_from_string` returns exactly the tiles written in the text, in order, for every
    text. -/
theorem C06_parse (text : List Char) : tilesFromString text = written text := tilesFromString_eq text

/-- **C06.** In particular, for well-formed groups anything may stand between them: a group is a run of
    digits and a colour letter (honours: digits 1 to 7), junk is any text in which nothing is written and
    that does not end in a digit. -/
theorem C06_parse_group (s : Suit) (digits rest : List Char) (hd : ∀ d ∈ digits, isDec d = true)
    (hz : s = .z → ∀ d ∈ digits, d ∉ ['0', '8', '9']) :
    tilesFromString (digits ++ s.letter :: rest) = digits.filterMap (digitTile s) ++ tilesFromString rest := by
  rw [tilesFromString_eq, tilesFromString_eq, written_group s digits rest hd
    (fun h d hdm => (isHon_iff d).2 ⟨hd d hdm, hz h d hdm⟩)]
  congr 1
  induction digits with
  | nil => rfl
  | cons d ds ih =>
    simp only [List.map_cons, List.filterMap_cons, digitTile_eq s (hd d (by simp))]
    rw [ih (fun y hy => hd y (by simp [hy])) (fun h y hy => hz h y (by simp [hy]))]

/-- **C06.** A character that is not a digit and not part of a group is skipped. -/
theorem C06_parse_junk (c : Char) (rest : List Char) (hc : isDec c = false) :
    tilesFromString (c :: rest) = tilesFromString rest := by
  rw [tilesFromString_eq, tilesFromString_eq, written_nondigit hc]

/-- **C06.** Printing a tile set and parsing the text gives back the same entries (same key objects, red
    or plain, same counts), sorted; entries with count zero or less are dropped. -/
theorem C06_roundtrip (c : TileSet) (hw : Counter.WF c) (hr : ∀ e ∈ c, RealTile e.1) :
    tileSetFromString (TileSet.str c) = (reSort c).filter (fun e => decide (0 < e.2)) :=
  tileSet_roundtrip hw hr

theorem tileSet_eq_of_perm {c d : TileSet} (hw : Counter.WF d) (hp : c.Perm d) : TileSet.eq c d = true := by
  unfold TileSet.eq
  simp only [Bool.and_eq_true, decide_eq_true_eq, List.all_eq_true]
  refine ⟨hp.length_eq, fun e he => ?_⟩
  have he' := hp.mem_iff.1 he
  exact ⟨Counter.has_iff.2 (Counter.mem_keys.2 ⟨e, he', rfl⟩), Counter.get_of_mem hw he'⟩

/-- **C06.** `tile_set_from_string(str(s)) == s` for every tile set of real tiles with positive counts. -/
theorem C06_roundtrip_eq (c : TileSet) (hw : Counter.WF c) (hr : ∀ e ∈ c, RealTile e.1)
    (hp : ∀ e ∈ c, 0 < e.2) :
    TileSet.eq (tileSetFromString (TileSet.str c)) c = true ∧
    ∀ k, content (tileSetFromString (TileSet.str c)) k = content c k := by
  have hperm := reSort_perm c
  have : tileSetFromString (TileSet.str c) = reSort c := by
    rw [tileSet_roundtrip hw hr]
    unfold Counter.keepPositive
    rw [List.filter_eq_self]
    intro e he
    exact decide_eq_true (hp e (hperm.mem_iff.1 he))
  rw [this]
  exact ⟨tileSet_eq_of_perm hw hperm, fun k => get_reSort hw k⟩

/-- instance: unsorted, with a red five, an honour, a repeated tile. -/
example : (∀ e ∈ ([(⟨.z,5,false⟩, 1), (⟨.p,0,true⟩, 2), (⟨.m,9,false⟩, 3)] : TileSet),
      RealTile e.1 ∧ 0 < e.2) ∧
    TileSet.str [(⟨.z,5,false⟩, 1), (⟨.p,0,true⟩, 2), (⟨.m,9,false⟩, 3)] = "999m00p5z".toList := by
  decide +kernel
/-- instance: malformed parts are ignored. -/
example : tilesFromString "12m0p089z89123z!12 3s".toList =
    [⟨.m,1,false⟩, ⟨.m,2,false⟩, ⟨.p,0,true⟩, ⟨.z,1,false⟩, ⟨.z,2,false⟩, ⟨.z,3,false⟩, ⟨.s,3,false⟩] := by
  decide +kernel

/-- The constant `TileDistribution.ALL_TILES` of the model is what the parser yields. -/
theorem C06_all_tiles :
    (tileSetFromString "123456789m123456789p123456789s1234567z".toList).map (fun e => e.1) = ALL_TILES := by
  decide +kernel

end Verif.Props
