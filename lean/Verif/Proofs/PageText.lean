import Verif.Proofs.PageTags

/-! The trees of the page. -/
namespace Verif.Proofs
open Verif.Py Verif.Model Verif.Spec.Html

/-- trees in front of what has been read -/
def lift (g : Forest → Forest) (r : Reading) : Reading := r.map (fun x => (x.1, g x.2))

theorem lift_some (g : Forest → Forest) (stack : List (Str × Forest)) (f : Forest) : lift g (some (stack, f)) = some (stack, g f) := rfl
theorem lift_none (g : Forest → Forest) : lift g none = none := rfl
theorem put_none (t : Token) : put t none = none := by cases t <;> rfl
theorem putText_none (t : Str) : putText t none = none := by
  induction t with
  | nil => rfl
  | cons c t ih => simp only [putText, List.foldr_cons] at ih ⊢; rw [ih]; rfl

theorem parsed_flatMap {α : Type} (X : α → Str) (g : α → Forest → Forest) (h : ∀ x s, parsed (X x ++ s) = lift (g x) (parsed s))
    (l : List α) (s : Str) : parsed (l.flatMap X ++ s) = lift (fun f => l.foldr g f) (parsed s) := by
  induction l with
  | nil =>
    cases h : parsed s <;> simp [h, lift]
  | cons x l ih =>
    simp only [List.flatMap_cons, List.append_assoc]
    rw [h, ih]
    cases parsed s <;> rfl

/-- the tag of a picture -/
def tileRaw (size : String) (t : Str) : Str := "div class=\"".toList ++ ("pic".toList ++ (escape t ++ (" ".toList ++ escape size.toList))) ++ ['"']

def tilesF (size : String) (l : List Str) (f : Forest) : Forest := l.foldr (fun t f => .el (tileRaw size t) .nil f) f

theorem quoted_closes (a : String) (v : Str) (hv : '"' ∉ v) (ha : closes none (a.toList ++ ['"']) = false)
    (h : ∀ rest, closes none (a.toList ++ '"' :: rest) = closes (some '"') rest) :
    closes none (a.toList ++ '"' :: (v ++ ['"'])) = true := by
  rw [h, closes_quoted v hv]
  rfl

theorem tileRaw_closes (size : String) (t : Str) : closes none (tileRaw size t) = true := by
  unfold tileRaw
  have e : ("div class=\"".toList ++ ("pic".toList ++ (escape t ++ (" ".toList ++ escape size.toList))) ++ ['"']) =
      "div class=".toList ++ '"' :: (("pic".toList ++ (escape t ++ (" ".toList ++ escape size.toList))) ++ ['"']) := rfl
  rw [e]
  refine quoted_closes "div class=" _ ?_ (by decide) (fun _ => rfl)
  simp only [List.mem_append, not_or]
  exact ⟨by decide, escape_no_quote t, by decide, escape_no_quote _⟩

theorem tileRaw_name (size : String) (t : Str) : tagName (tileRaw size t) = "div".toList := rfl

theorem parsed_tile (size : String) (t s : Str) :
    parsed (("<div class=\"pic".toList ++ escape t ++ " ".toList ++ escape size.toList ++ "\">".toList ++ "</div>".toList) ++ s) =
      lift (fun f => .el (tileRaw size t) .nil f) (parsed s) := by
  have e : (("<div class=\"pic".toList ++ escape t ++ " ".toList ++ escape size.toList ++ "\">".toList ++ "</div>".toList) ++ s) =
      ('<' :: tileRaw size t ++ ['>']) ++ ("</div>".toList ++ s) := by
    unfold tileRaw
    have : "<div class=\"pic".toList = '<' :: ("div class=\"".toList ++ "pic".toList) := rfl
    rw [this]
    simp
  rw [e, parsed_tag _ _ (tileRaw_closes size t), parsed_lit20]
  cases parsed s with
  | none => rfl
  | some x => rfl

theorem parsed_tiles (size : String) (l : List Str) (s : Str) :
    parsed (tileMacro size l ++ s) = lift (tilesF size l) (parsed s) :=
  parsed_flatMap _ _ (fun t s => parsed_tile size t s) l s

/-- the tree of an item -/
def itemF (x : NItem) (f : Forest) : Forest :=
  charsF "\n        ".toList (.el "div class=\"reasoning-tile\"".toList
    (charsF "\n            ".toList (.el "div".toList
      (charsF "Discard".toList (charsF [Char.ofNat 160] (tilesF "small" x.discard
        (charsF "\n                ".toList (.el "div class=\"blackbox\"".toList
          (charsF "\n                    Steps ".toList (charsF (pyStrInt x.step)
            (charsF "\n                    Tiles ".toList (charsF (pyStrInt x.count) (charsF "\n                ".toList .nil)))))
          (charsF "\n            ".toList .nil))))))
      (charsF "\n            ".toList (.el "div".toList
        (charsF "Expect ".toList (tilesF "small" x.useful (charsF "\n            ".toList .nil)))
        (charsF "\n        ".toList .nil)))))
    (charsF "\n    ".toList f))

theorem parsed_item (x : NItem) (s : Str) : parsed (itemHtml x ++ s) = lift (itemF x) (parsed s) := by
  unfold itemHtml
  cases h : parsed s with
  | none => read_page [parsed_tiles, h, put_none, putText_none, lift_none]
  | some y =>
    obtain ⟨stack, f⟩ := y
    read_page [parsed_tiles, h, lift_some]
    rfl

def itemsF (l : List NItem) (f : Forest) : Forest := l.foldr itemF f

theorem parsed_items (l : List NItem) (s : Str) : parsed (itemsHtml l ++ s) = lift (itemsF l) (parsed s) :=
  parsed_flatMap _ _ (fun x s => parsed_item x s) l s

def meldsF (l : List (List Str)) (f : Forest) : Forest := l.foldr (fun m f => tilesF "big" m (charsF [Char.ofNat 160] f)) f

theorem parsed_melds (l : List (List Str)) (s : Str) : parsed (meldsHtml l ++ s) = lift (meldsF l) (parsed s) := by
  refine parsed_flatMap _ _ (fun m s => ?_) l s
  cases h : parsed s with
  | none => read_page [parsed_tiles, h, put_none, putText_none, lift_none]
  | some y =>
    obtain ⟨stack, f⟩ := y
    read_page [parsed_tiles, h, lift_some]

def expectedF (l : List NItem) (f : Forest) : Forest :=
  l.foldr (fun x f => charsF "\n                                ".toList (tilesF "big" x.discard f)) f

theorem parsed_expected (l : List NItem) (s : Str) : parsed (expectedHtml l ++ s) = lift (expectedF l) (parsed s) := by
  refine parsed_flatMap _ _ (fun m s => ?_) l s
  cases h : parsed s with
  | none => read_page [parsed_tiles, h, put_none, putText_none, lift_none]
  | some y =>
    obtain ⟨stack, f⟩ := y
    read_page [parsed_tiles, h, lift_some]

def stepsF (x : NItem) (f : Forest) : Forest :=
  charsF "Steps ".toList (charsF (pyStrInt x.step)
    (charsF "\n                                                Tiles ".toList (charsF (pyStrInt x.count) f)))

theorem parsed_steps (x : NItem) (s : Str) : parsed (stepsHtml x ++ s) = lift (stepsF x) (parsed s) := by
  unfold stepsHtml
  cases h : parsed s with
  | none => read_page [h, putText_none, lift_none]
  | some y =>
    obtain ⟨stack, f⟩ := y
    read_page [h, lift_some]
    rfl

/-- the tag of a row -/
def rowRaw (float : Rat → Str) (r : RoundReasoning) : Str :=
  "tr style=\"".toList ++ ("background-color: ".toList ++ (rowColour r ++ (escape (float r.wrongRate) ++ ");".toList))) ++ ['"']

theorem rowColour_quote (r : RoundReasoning) : '"' ∉ rowColour r := by
  unfold rowColour
  split <;> decide

theorem rowRaw_closes (float : Rat → Str) (r : RoundReasoning) : closes none (rowRaw float r) = true := by
  unfold rowRaw
  have e : ("tr style=\"".toList ++ ("background-color: ".toList ++ (rowColour r ++ (escape (float r.wrongRate) ++ ");".toList))) ++ ['"']) =
      "tr style=".toList ++ '"' :: (("background-color: ".toList ++ (rowColour r ++ (escape (float r.wrongRate) ++ ");".toList))) ++ ['"']) := rfl
  rw [e]
  refine quoted_closes "tr style=" _ ?_ (by decide) (fun _ => rfl)
  simp only [List.mem_append, not_or]
  exact ⟨by decide, rowColour_quote r, escape_no_quote _, by decide⟩

theorem parsed_row_tag (float : Rat → Str) (r : RoundReasoning) (s : Str) :
    parsed ("<tr style=\"background-color: ".toList ++ (rowColour r ++ (escape (float r.wrongRate) ++ (");\">".toList ++ s)))) =
      put (.tag (rowRaw float r)) (parsed s) := by
  have e : ("<tr style=\"background-color: ".toList ++ (rowColour r ++ (escape (float r.wrongRate) ++ (");\">".toList ++ s)))) =
      ('<' :: rowRaw float r ++ ['>']) ++ s := by
    unfold rowRaw
    have e1 : "<tr style=\"background-color: ".toList = '<' :: ("tr style=\"".toList ++ "background-color: ".toList) := rfl
    have e2 : ");\">".toList = ");".toList ++ ['"', '>'] := rfl
    rw [e1, e2]
    simp
  rw [e, parsed_tag _ _ (rowRaw_closes float r)]

theorem put_row (float : Rat → Str) (r : RoundReasoning) (stack : List (Str × Forest)) (f after : Forest) :
    put (.tag (rowRaw float r)) (some (("tr".toList, after) :: stack, f)) = some (stack, .el (rowRaw float r) f after) := rfl

/-- the small table of a row -/
def summaryF (r : RoundReasoning) (best : NItem) : Forest :=
  charsF "\n                                    ".toList (.el "table class=\"description-table\"".toList
    (charsF "\n                                        ".toList (.el "tr".toList
      (charsF "\n                                            ".toList (.el "td".toList (charsF "Expected".toList .nil)
        (charsF "\n                                            ".toList (.el "td".toList (stepsF best .nil)
          (charsF "\n                                        ".toList .nil)))))
      (charsF "\n                                        ".toList (.el "tr".toList
        (charsF "\n                                            ".toList (.el "td".toList (charsF "Actual".toList .nil)
          (charsF "\n                                            ".toList (.el "td".toList (stepsF r.yourChoice .nil)
            (charsF "\n                                        ".toList .nil)))))
        (charsF "\n                                    ".toList .nil)))))
    (charsF "\n                                ".toList .nil))

/-- a list that opens separately -/
def moreF (title : Str) (l : List NItem) (f : Forest) : Forest :=
  .el "details".toList
    (charsF "\n                                    ".toList (.el "summary".toList (charsF title .nil)
      (charsF "\n                                    ".toList (itemsF l (charsF "\n                                ".toList .nil))))) f

/-- the last cell of a row -/
def detailsF (r : RoundReasoning) (best : NItem) : Forest :=
  charsF "\n                                ".toList (.el "summary".toList (summaryF r best)
    (charsF "\n                                ".toList (itemsF r.merged
      (charsF "\n                                ".toList
        (moreF "\n                                        Normal-Type Reasoning\n                                    ".toList
          (r.table "normal_reasonings")
          (charsF "\n                                ".toList
            (moreF "\n                                        Seven-Pair Reasoning\n                                    ".toList
              (r.table "seven_pair_reasonings") (charsF "\n                            ".toList .nil))))))))

/-- what is inside of a row -/
def rowInside (index : Nat) (r : RoundReasoning) (best : NItem) : Forest :=
  charsF "\n                        ".toList (.el "td".toList (charsF (natDigits index) .nil)
    (charsF "\n                        ".toList (.el "td".toList
      (charsF "\n                            ".toList (meldsF r.melds
        (charsF "\n                            ".toList (tilesF "big" r.hand (charsF "\n                        ".toList .nil)))))
      (charsF "\n                        ".toList (.el "td class=\"tile\"".toList (tilesF "big" r.yourChoice.discard .nil)
        (charsF "\n                        ".toList (.el "td class=\"tile\"".toList
          (charsF "\n                            ".toList (expectedF r.expected (charsF "\n                        ".toList .nil)))
          (charsF "\n                        ".toList (.el "td".toList
            (charsF "\n                            ".toList (.el "details".toList (detailsF r best)
              (charsF "\n                        ".toList .nil)))
            (charsF "\n                    ".toList .nil))))))))))

/-- the tree of a row -/
def rowF (float : Rat → Str) (index : Nat) (r : RoundReasoning) (best : NItem) (f : Forest) : Forest :=
  charsF "\n                    ".toList (.el (rowRaw float r) (rowInside index r best) (charsF "\n                ".toList f))

set_option maxRecDepth 4000 in
theorem parsed_row (float : Rat → Str) (index : Nat) (r : RoundReasoning) (best : NItem) (s : Str) :
    parsed (rowHtml float index r best ++ s) = lift (rowF float index r best) (parsed s) := by
  unfold rowHtml
  cases h : parsed s with
  | none =>
    read_page [parsed_tiles, parsed_items, parsed_melds, parsed_expected, parsed_steps, parsed_row_tag, h, put_none, putText_none,
      lift_none]
  | some y =>
    obtain ⟨stack, f⟩ := y
    read_page [parsed_tiles, parsed_items, parsed_melds, parsed_expected, parsed_steps, parsed_row_tag, h, lift_some, put_row]
    rfl

/-- the first expected choice -/
def bestOf (r : RoundReasoning) : NItem := r.expected.headD r.yourChoice

def rowsF (float : Rat → Str) (index : Nat) : List RoundReasoning → Forest → Forest
  | [], f => f
  | r :: rs, f => rowF float index r (bestOf r) (rowsF float (index + 1) rs f)

theorem rowsHtml_cons {float : Rat → Str} {index : Nat} {r : RoundReasoning} {rs : List RoundReasoning} {t : Str}
    (h : rowsHtml float index (r :: rs) = .ok t) :
    r.expected ≠ [] ∧ ∃ more, rowsHtml float (index + 1) rs = .ok more ∧ t = rowHtml float index r (bestOf r) ++ more := by
  unfold rowsHtml at h
  unfold bestOf
  cases e : r.expected with
  | nil => rw [e] at h; simp at h
  | cons b l =>
    rw [e] at h
    simp only at h
    cases e2 : rowsHtml float (index + 1) rs with
    | error x => rw [e2] at h; simp [bind, Except.bind] at h
    | ok more =>
      rw [e2] at h
      simp only [bind, Except.bind, pure, Except.pure, Except.ok.injEq] at h
      exact ⟨by simp, more, rfl, h.symm⟩

theorem parsed_rows (float : Rat → Str) (rs : List RoundReasoning) : ∀ (index : Nat) (t s : Str), rowsHtml float index rs = .ok t →
    parsed (t ++ s) = lift (rowsF float index rs) (parsed s) := by
  induction rs with
  | nil =>
    intro index t s h
    simp only [rowsHtml, Except.ok.injEq] at h
    subst h
    cases h : parsed s <;> simp [h, lift, rowsF]
  | cons r rs ih =>
    intro index t s h
    obtain ⟨_, more, h1, h2⟩ := rowsHtml_cons h
    rw [h2, List.append_assoc, parsed_row, ih _ _ _ h1]
    cases parsed s <;> rfl

/-- a heading of a table -/
def headingF (a b : String) (f : Forest) : Forest :=
  .el "th".toList (charsF a.toList (.el "br".toList .nil (charsF b.toList .nil))) f

/-- the first row of a table -/
def headingsF : Forest :=
  charsF "\n                    ".toList (headingF "Round " "(巡目)" (charsF "\n                    ".toList (headingF "Hand " "(手牌)"
    (charsF "\n                    ".toList (headingF "Your Choice " "(你的选择)" (charsF "\n                    ".toList
      (headingF "Expected Choice " "(期望选择)" (charsF "\n                    ".toList (headingF "Reasoning " "(牌理)"
        (charsF "\n                ".toList .nil))))))))))

/-- what is inside of the element of a game -/
def gameInside (float : Rat → Str) (title : Str) (rows : List RoundReasoning) : Forest :=
  charsF "\n            ".toList (.el "summary".toList (.el "span class=\"game-caption\"".toList (charsF title .nil) .nil)
    (charsF "\n            ".toList (.el "table".toList
      (charsF "\n                ".toList (.el "tr".toList headingsF
        (charsF "\n                ".toList (rowsF float 1 rows (charsF "\n            ".toList .nil)))))
      (charsF "\n        ".toList .nil))))

/-- the tree of a game -/
def gameF (float : Rat → Str) (g : Str × List RoundReasoning) (f : Forest) : Forest :=
  charsF "\n    ".toList (.el "div".toList
    (charsF "\n        ".toList (.el "details open".toList (gameInside float g.1 g.2) (charsF "\n    ".toList .nil)))
    (charsF "\n".toList f))

set_option maxRecDepth 4000 in
theorem parsed_game (float : Rat → Str) (title : Str) (rows : List RoundReasoning) (t s : Str) (ht : rowsHtml float 1 rows = .ok t) :
    parsed (gameHtml title t ++ s) = lift (gameF float (title, rows)) (parsed s) := by
  have hr := fun s => parsed_rows float rows 1 t s ht
  unfold gameHtml
  cases h : parsed s with
  | none => read_page [hr, h, put_none, putText_none, lift_none]
  | some y =>
    obtain ⟨stack, f⟩ := y
    read_page [hr, h, lift_some]
    rfl

def gamesF (float : Rat → Str) (l : List (Str × List RoundReasoning)) (f : Forest) : Forest := l.foldr (gameF float) f

theorem gamesHtml_cons {float : Rat → Str} {g : Str × List RoundReasoning} {gs : List (Str × List RoundReasoning)} {t : Str}
    (h : gamesHtml float (g :: gs) = .ok t) :
    ∃ rows more, rowsHtml float 1 g.2 = .ok rows ∧ gamesHtml float gs = .ok more ∧ t = gameHtml g.1 rows ++ more := by
  unfold gamesHtml at h
  cases e1 : rowsHtml float 1 g.2 with
  | error x => rw [e1] at h; simp [bind, Except.bind] at h
  | ok rows =>
    cases e2 : gamesHtml float gs with
    | error x => rw [e1, e2] at h; simp [bind, Except.bind] at h
    | ok more =>
      rw [e1, e2] at h
      simp only [bind, Except.bind, pure, Except.pure, Except.ok.injEq] at h
      exact ⟨rows, more, rfl, rfl, h.symm⟩

theorem parsed_games (float : Rat → Str) (gs : List (Str × List RoundReasoning)) : ∀ (t s : Str), gamesHtml float gs = .ok t →
    parsed (t ++ s) = lift (gamesF float gs) (parsed s) := by
  induction gs with
  | nil =>
    intro t s h
    simp only [gamesHtml, Except.ok.injEq] at h
    subst h
    cases h : parsed s <;> simp [h, lift, gamesF]
  | cons g gs ih =>
    intro t s h
    obtain ⟨rows, more, h1, h2, h3⟩ := gamesHtml_cons h
    rw [h3, List.append_assoc, parsed_game float g.1 g.2 rows _ h1, ih _ _ h2]
    cases parsed s <;> rfl

/-! ### The styles -/

theorem base64Char_plain (n : Nat) : base64Char n ∈ base64Alphabet := by
  unfold base64Char
  have : n % 64 < base64Alphabet.length := by
    have : base64Alphabet.length = 64 := by decide
    omega
  rw [List.getD_eq_getElem?_getD, List.getElem?_eq_getElem this, Option.getD_some]
  exact List.getElem_mem this

theorem b64encode_chars (l : List Nat) : ∀ c ∈ b64encode l, c ∈ base64Alphabet ∨ c = '=' := by
  fun_induction b64encode l with
  | case1 => simp
  | case2 a =>
    intro c hc
    simp only [List.mem_cons, List.not_mem_nil, or_false] at hc
    rcases hc with h | h | h | h
    · exact Or.inl (h ▸ base64Char_plain _)
    · exact Or.inl (h ▸ base64Char_plain _)
    · exact Or.inr h
    · exact Or.inr h
  | case3 a b =>
    intro c hc
    simp only [List.mem_cons, List.not_mem_nil, or_false] at hc
    rcases hc with h | h | h | h
    · exact Or.inl (h ▸ base64Char_plain _)
    · exact Or.inl (h ▸ base64Char_plain _)
    · exact Or.inl (h ▸ base64Char_plain _)
    · exact Or.inr h
  | case4 a b c l ih =>
    intro d hd
    simp only [List.mem_cons] at hd
    rcases hd with h | h | h | h | h
    · exact Or.inl (h ▸ base64Char_plain _)
    · exact Or.inl (h ▸ base64Char_plain _)
    · exact Or.inl (h ▸ base64Char_plain _)
    · exact Or.inl (h ▸ base64Char_plain _)
    · exact ih d h

theorem alphabet_plain : ∀ c ∈ base64Alphabet, c ≠ '<' ∧ c ≠ '&' := by decide

theorem b64encode_plain (l : List Nat) : noMarkup (b64encode l) = true := by
  simp only [noMarkup, List.all_eq_true, decide_eq_true_eq]
  intro c hc
  rcases b64encode_chars l c hc with h | h
  · exact alphabet_plain c h
  · subst h; decide

/-- the text of the style of a tile -/
def styleText (t : Str) (bytes : List Nat) : Str :=
  "\n            .pic".toList ++ (t ++ (" {\n                background-image: url(\"data:image/png;base64,".toList ++
    (b64encode bytes ++ "\");\n            }\n        ".toList)))

theorem charsF_append (a b : Str) (f : Forest) : charsF (a ++ b) f = charsF a (charsF b f) := by simp [charsF]

theorem parsed_style (t : Str) (bytes : List Nat) (s : Str) :
    parsed (styleHtml t bytes ++ s) = lift (charsF (styleText t bytes)) (parsed s) := by
  unfold styleHtml
  cases h : parsed s with
  | none => read_page [parsed_plain _ _ (b64encode_plain bytes), h, putText_none, lift_none]
  | some y =>
    obtain ⟨stack, f⟩ := y
    read_page [parsed_plain _ _ (b64encode_plain bytes), h, lift_some]
    unfold styleText
    simp only [charsF_append]

/-- the text of the styles of tiles -/
def stylesText (picture : Str → Except PyErr (List Nat)) (l : List Str) : Str :=
  l.flatMap (fun t => styleText t ((picture (t ++ ".png".toList)).toOption.getD []))

theorem parsed_styles (picture : Str → Except PyErr (List Nat)) (l : List Str) : ∀ (t s : Str), stylesHtml picture l = .ok t →
    (∀ x ∈ l, ∃ b, picture (x ++ ".png".toList) = .ok b) ∧ parsed (t ++ s) = lift (charsF (stylesText picture l)) (parsed s) := by
  induction l with
  | nil =>
    intro t s h
    simp only [stylesHtml, Except.ok.injEq] at h
    subst h
    refine ⟨by simp, ?_⟩
    cases h : parsed s <;> simp [h, lift, stylesText, charsF]
  | cons x l ih =>
    intro t s h
    unfold stylesHtml at h
    cases e1 : picture (x ++ ".png".toList) with
    | error x => rw [e1] at h; simp [bind, Except.bind] at h
    | ok b =>
      cases e2 : stylesHtml picture l with
      | error x => rw [e1, e2] at h; simp [bind, Except.bind] at h
      | ok more =>
        rw [e1, e2] at h
        simp only [bind, Except.bind, pure, Except.pure, Except.ok.injEq] at h
        subst h
        obtain ⟨i1, i2⟩ := ih more s e2
        refine ⟨?_, ?_⟩
        · intro y hy
          rcases List.mem_cons.1 hy with e | e
          · subst e; exact ⟨b, e1⟩
          · exact i1 y e
        · rw [List.append_assoc, parsed_style, i2]
          have : stylesText picture (x :: l) = styleText x b ++ stylesText picture l := by
            simp only [stylesText, List.flatMap_cons, e1]
            rfl
          rw [this]
          cases parsed s with
          | none => rfl
          | some y => simp [lift, charsF_append]

end Verif.Proofs
