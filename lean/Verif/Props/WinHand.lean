import Verif.Proofs.TranslateHand
import Verif.Proofs.TranslateScore2
import Verif.Props.Effects
import Verif.Props.Translate

/-!
# C51: the hand that a win event checks

`agari_command` (`mahjong/record/universe/tenhou/event_definition.py:242-259`) asserts that the winner holds the tiles of the
event, without the tile won from another player.
-/

namespace Verif.Props
open Verif.Py Verif.Model Verif.Spec Verif.Proofs

theorem perm_occ {a b : List Val} (h : a.Perm b) (x : Val) : occ x a = occ x b := by
  unfold occ
  exact (h.filter _).length_eq

theorem items_strs (a : List Str) : tileItems (strs a) = some (a.map Val.str) := by
  unfold tileItems strs
  dsimp only
  rw [if_pos]
  rw [List.all_eq_true]
  intro x hx
  obtain ⟨y, _, rfl⟩ := List.mem_map.1 hx
  rfl

theorem same_strs {a b : List Str} (h : a.Perm b) : Same .tiles (strs a) (strs b) := by
  refine ⟨_, _, items_strs a, items_strs b, ?_⟩
  intro x
  exact perm_occ (h.map _) x

theorem erase_names {l : List Int} {m : Int} (h : m ∈ l) : ((l.map tileName).erase (tileName m)).Perm ((l.erase m).map tileName) := by
  have h1 : (l.map tileName).Perm (tileName m :: (l.erase m).map tileName) := (List.perm_cons_erase h).map _
  have := h1.erase (tileName m)
  rwa [List.erase_cons_head] at this

/-- **C51.** A win of `w` from `f`, whose event has the tiles `hai` and the winning tile `m`: one command compares the winner's
    hand with the names of `hai`, without one `m` if the tile was won from another player; afterwards the hand is that. -/
theorem C51_hand (strict : Bool) (ctx ctx' : Ctx) (t : TEvent) (ht : t.ev.tag = "AGARI".toList) (w f : Nat)
    (hw : t.ev.attrib.lookup "who".toList = some (natDigits w)) (hf : t.ev.attrib.lookup "fromWho".toList = some (natDigits f))
    (hai : List Int) (hne : hai ≠ []) (htile : ∀ x ∈ hai, IsTile x) (hh : t.ev.attrib.lookup "hai".toList = some (commaList hai))
    (m : Int) (hmt : m ∈ hai) (hm : t.ev.attrib.lookup "machi".toList = some (commaList [m])) (out : List Cmd)
    (h : callTranslator strict ctx t = .ok (ctx', out)) :
    ∃ names c, names.Perm ((if w = f then hai else hai.erase m).map tileName) ∧ ctx'.vals.get (ofPlayer w "hand") = strs names ∧
      about (ofPlayer w "hand") out = [c] ∧ c.update = .assertEqualOrSet ∧ c.value = strs names ∧ c.state = strs names := by
  obtain ⟨ctx1, l, hg, hp, _⟩ := call_inv h
  have hg' := hg
  rw [named_agari_gen ht] at hg'
  simp only [agariCommand, bind_ok, pure_ok, Prod.mk.injEq] at hg'
  obtain ⟨wt, hw', q, hq, ft, hf', r, hr, sct, _, sc, _, ht', hh', names, hn', ex, hex, yaku, _, rest, hrest, rfl, rfl⟩ := hg'
  simp only [Event.get, hw] at hw'
  cases hw'
  simp only [Event.get, hf] at hf'
  cases hf'
  simp only [Event.get, hh] at hh'
  cases hh'
  rw [pyInt_natDigits] at hq hr
  cases hq
  cases hr
  have hnames : names = hai.map tileName := by
    simp only [tileStrList, intList_comma hai hne, bind, Except.bind, tileNames_eq htile, Except.ok.injEq] at hn'
    exact hn'.symm
  subst hnames
  have hperm : ex.Perm ((if w = f then hai else hai.erase m).map tileName) := by
    unfold expectedHand at hex
    by_cases hwf : w = f
    · rw [if_neg (by simp [hwf]), Except.ok.injEq] at hex
      rw [if_pos hwf, hex]
    · rw [if_pos (by omega)] at hex
      simp only [Event.get, hm, tileStrList, intList_comma [m] (by simp), bind, Except.bind,
        tileNames_eq (l := [m]) (by simpa using htile m hmt), List.map_cons, List.map_nil, pyIdx, removeText] at hex
      change (if tileName m ∈ hai.map tileName then Except.ok ((hai.map tileName).erase (tileName m)) else Except.error PyErr.valueError) =
        Except.ok ex at hex
      rw [if_pos (List.mem_map_of_mem hmt), Except.ok.injEq] at hex
      rw [if_neg hwf, ← hex]
      exact erase_names hmt
  have hab : about (ofPlayer w "hand") ([pcmd .gameFinish (w : Int) "hand" .assertEqualOrSet (strs ex),
      gcmd .gameFinish "nobody_win" .replace (.bool false)] ++ rest) = [pcmd .gameFinish (w : Int) "hand" .assertEqualOrSet (strs ex)] := by
    have hrest' : Within endEffects rest := gameFinish_within (by decide) hrest
    have h3 := about_within hrest' (by decide) (sc := .player) (a := "hand") (by decide) (by decide) (.num (w : Int))
    rw [show (Sub.num (w : Int), Verif.Model.view Scope.player "hand") = ofPlayer w "hand" from rfl] at h3
    simp only [List.cons_append, List.nil_append]
    rw [about_pcmd_self, about_gcmd, h3]
  have hget := call_get h hg (ofPlayer w "hand")
  rw [hab] at hget
  have hv : ctx'.vals.get (ofPlayer w "hand") = strs ex := by
    simp only [applyAll, newValue, pcmd, bind, Except.bind, Except.ok.injEq] at hget
    exact hget.symm
  have hout := about_map (ofPlayer w "hand") _ _ (postprocess_out hp).1
  rw [hab] at hout
  obtain ⟨c, hc⟩ : ∃ c, about (ofPlayer w "hand") out = [c] := by
    have := congrArg List.length hout
    simp only [List.length_map, List.length_cons, List.length_nil] at this
    exact List.length_eq_one_iff.1 this
  rw [hc] at hout
  simp only [List.map_cons, List.map_nil, List.cons.injEq, and_true, Cmd.mk.injEq, pcmd] at hout
  refine ⟨ex, c, hperm, hv, hc, by simp [hout], by simp [hout], ?_⟩
  rcases postprocess_last hp (ofPlayer w "hand") with ⟨a, _⟩ | ⟨a, c', h5, h6⟩
  · rw [hc] at a
    cases a
  · rw [hc] at h5
    have := congrArg List.getLast? h5
    simp only [List.getLast?_singleton, List.getLast?_append, Option.some_or, Option.some.injEq] at this
    rw [this, h6, hv]

/-- **C51.** A game that is played consistently up to a win of `p` from `f`, whose event has the tiles the winner holds, and the tile
    won from another player if there is one: the comparison succeeds. -/
theorem C51_hand_checked (strict : Bool) (ctx ctx' : Ctx) (n : Nat) (hn : ctx.playerCount = .ok n) (p : Fin 4) (hp : p.val < n)
    (seed : List Int) (hands : Fin 4 → List Int) (more : List (Str × Str)) (ms : List Move)
    (hdl : seed ≠ []) (hdp : hands p ≠ []) (hnd : (hands p).Nodup) (hT : ∀ t ∈ hands p, IsTile t)
    (hok : PlayOk ms) (hend : NoEnd ms) (hc : Consistent p (.deal seed hands more :: ms))
    (ts : List TEvent) (hts : Records ts (.deal seed hands more :: ms)) (t : TEvent) (ht : t.ev.tag = "AGARI".toList)
    (hw : t.ev.attrib.lookup "who".toList = some (natDigits p.val)) (f : Nat)
    (hf : t.ev.attrib.lookup "fromWho".toList = some (natDigits f)) (hai : List Int) (hhnd : hai.Nodup) (htile : ∀ x ∈ hai, IsTile x)
    (hh : t.ev.attrib.lookup "hai".toList = some (commaList hai)) (m : Int) (hmt : m ∈ hai)
    (hm : t.ev.attrib.lookup "machi".toList = some (commaList [m]))
    (hheld : ∀ x, Held p x (.deal seed hands more :: ms) ↔ x ∈ hai ∧ (p.val ≠ f → x ≠ m)) (out : List Cmd)
    (h : translateAll strict ctx (ts ++ [t]) = .ok (ctx', out)) :
    ∃ before after ctx1 o c, translateAll strict ctx ts = .ok (ctx1, before) ∧ out = before ++ o ∧ about (ofPlayer p.val "hand") o = [c] ∧
      c.update = .assertEqualOrSet ∧ ctx1.vals.get (ofPlayer p.val "hand") = after ∧ Same .tiles after c.value := by
  obtain ⟨ctx1, o1, o2, h1, h2, rfl⟩ := translateAll_append.1 h
  simp only [translateAll, bind_ok, pure_ok, Prod.exists, Prod.mk.injEq, Except.ok.injEq] at h2
  obtain ⟨c1, l1, h3, c2, l2, ⟨rfl, rfl⟩, rfl, rfl⟩ := h2
  obtain ⟨l', s1, ⟨s2, _, names, s3, s4⟩, _⟩ := hands_sim [] hn hp hnd hT
    (legalFor_deal hdl hdp (fun m hm => (hok m hm).1) (fun m hm => (hok m hm).2.1))
    (fun m hm => (hok m hm).2.1) (fun m hm => (hok m hm).2.2) (fun e he => (hend e he).1) hc hts h1
  obtain ⟨names', c, k1, k2, k3, k4, k5, k6⟩ := C51_hand strict ctx1 c1 t ht p.val f hw hf hai (List.ne_nil_of_mem hmt) htile hh m hmt hm l1 h3
  refine ⟨o1, _, ctx1, l1, c, h1, by simp, k3, k4, rfl, ?_⟩
  rw [s3, k5]
  apply same_strs
  refine s4.trans (List.Perm.trans (List.Perm.map _ ?_) k1.symm)
  obtain ⟨l, q1, q2, q3⟩ := C32_after_deal p [] List.nodup_nil seed hands more ms
    (legalFor_deal hdl hdp (fun m hm => (hok m hm).1) (fun m hm => (hok m hm).2.1))
  have hl : l = l' := by
    rw [passedEvents_eq, s1] at q1
    injection q1 with q1
    injection q1 with _ q1
    exact q1.symm
  subst hl
  apply (List.perm_ext_iff_of_nodup s2 ?_).2
  · intro x
    rw [q3, hheld]
    by_cases hpf : p.val = f
    · rw [if_pos hpf]
      simp [hpf]
    · rw [if_neg hpf, hhnd.mem_erase_iff]
      simp [hpf, and_comm]
  · split
    · exact hhnd
    · exact hhnd.erase _

/-- the sample, in which player 2 wins with the 5p of player 0 -/
example : ∃ ctx out before o c, translateAll true sampleCtx (sampleEvents (sampleDeal :: samplePlay) ++ [sampleAgari]) = .ok (ctx, out) ∧
    out = before ++ o ∧ about (ofPlayer 2 "hand") o = [c] ∧ c.update = .assertEqualOrSet := by
  have hx : (translateAll true sampleCtx (sampleEvents (sampleDeal :: samplePlay) ++ [sampleAgari])).toOption.isSome = true := by decide +kernel
  generalize hr : translateAll true sampleCtx (sampleEvents (sampleDeal :: samplePlay) ++ [sampleAgari]) = r at hx ⊢
  cases r with
  | error => cases hx
  | ok r =>
    obtain ⟨ctx', out⟩ := r
    have hnd : ∀ p, (sampleHands p).Nodup := by decide +kernel
    have hT : ∀ p, ∀ t ∈ sampleHands p, IsTile t := by unfold IsTile; decide +kernel
    have hend : NoEnd samplePlay := by
      intro e he
      simp [samplePlay] at he
      rcases he with rfl | rfl <;> decide +kernel
    have hheld : ∀ x, Held 2 x (sampleDeal :: samplePlay) ↔ x ∈ [52, 60, 61, 62, 53] ∧ ((2 : Fin 4).val ≠ 0 → x ≠ 53) := by
      obtain ⟨l, l1, l2, l3⟩ := C32_after_deal 2 [] List.nodup_nil _ sampleHands sampleMore samplePlay
        (legalFor_deal sampleDeal_legal (sampleHands_dealt 2) (fun m hm => (samplePlay_ok m hm).1) (fun m hm => (samplePlay_ok m hm).2.1))
      have hv : ((GState.hand 2 []).passedEvents ((sampleDeal :: samplePlay).map Move.event)).toOption.map (fun s => match s with | .hand _ l => l | _ => []) = some [52, 60, 61, 62] := by
        decide +kernel
      rw [show (GState.hand 2 []).passedEvents ((sampleDeal :: samplePlay).map Move.event) = _ from l1] at hv
      simp only [Except.toOption, Option.map_some, Option.some.injEq] at hv
      subst hv
      intro x
      rw [show Held 2 x (sampleDeal :: samplePlay) ↔ _ from (l3 x).symm]
      simp only [List.mem_cons, List.not_mem_nil, or_false, ne_eq]
      constructor
      · rintro (rfl | rfl | rfl | rfl) <;> decide
      · rintro ⟨rfl | rfl | rfl | rfl | rfl, h⟩ <;> simp at h ⊢
    obtain ⟨before, _, _, o, c, _, h2, h3, h4, _⟩ := C51_hand_checked true sampleCtx ctx' 4 sampleCtx_count 2 (by decide) _ _ _ samplePlay
      sampleDeal_legal (sampleHands_dealt 2) (hnd 2) (hT 2) samplePlay_ok hend (sample_consistent 2) _ (sampleEvents_records _) sampleAgari rfl rfl 0 rfl
      [52, 60, 61, 62, 53] (by decide) (by unfold IsTile; decide) rfl 53 (by decide) rfl hheld out hr
    exact ⟨ctx', out, before, o, c, rfl, h2, h3, h4⟩

/-- **C51.** A win event that has neither the patterns of the hand nor the limit hands is never translated. -/
theorem C51_no_yaku (strict : Bool) (ctx : Ctx) (t : TEvent) (ht : t.ev.tag = "AGARI".toList)
    (h1 : t.ev.attrib.lookup "yaku".toList = none) (h2 : t.ev.attrib.lookup "yakuman".toList = none) :
    ∀ r, callTranslator strict ctx t ≠ .ok r := by
  rintro ⟨ctx', out⟩ h
  obtain ⟨ctx1, l, hg, _, _⟩ := call_inv h
  rw [named_agari_gen ht] at hg
  simp only [agariCommand, bind_ok, pure_ok, Prod.mk.injEq] at hg
  obtain ⟨_, _, _, _, _, _, _, _, _, _, _, _, _, _, _, _, _, _, yaku, hy, _⟩ := hg
  unfold yakuOf at hy
  rw [h1, h2] at hy
  cases hy

example : ∀ r, callTranslator false sampleCtx ⟨0, ⟨"AGARI".toList, sampleAgari.ev.attrib.filter (fun a => a.1 ≠ "yaku".toList)⟩⟩ ≠ .ok r :=
  C51_no_yaku _ _ _ rfl (by decide +kernel) (by decide +kernel)

end Verif.Props
