import Verif.Props.DictStore

namespace Verif.Props
open Verif.Py Verif.Model Verif.Spec Verif.Proofs

theorem goTo_lookup (k : Key) : ∀ (ks : List Key) (d c : TD), goTo d ks = .ok c →
    reads (.node d.kids) (ks ++ [k]) = c.kids.lookup k
  | [], d, c, h => by
    cases h
    simp only [List.nil_append, reads]
    cases d.kids.lookup k <;> rfl
  | k0 :: ks, d, c, h => by
    simp only [goTo, bind_ok, TD.child] at h
    obtain ⟨e, he, h⟩ := h
    have ih := goTo_lookup k ks e c h
    split at he
    · rename_i kids hl
      cases he
      simp only [List.cons_append, reads, hl, Option.bind_some]
      exact ih
    · cases he
    · cases he

theorem dictIs_lookup {h : DStore} {r : Nat} {d : TD} (hd : DictIs h r d.kids d.parents) (k : Key) :
    dictItem r k h = none ↔ d.kids.lookup k = none := by
  have ho : ∃ parent, ObjIs h r parent d.kids := by
    cases hp : d.parents with
    | nil => rw [hp] at hd; exact ⟨_, hd⟩
    | cons x ps => rw [hp] at hd; obtain ⟨p, h1, _⟩ := hd; exact ⟨_, h1⟩
  obtain ⟨parent, o, o1, o2, o3⟩ := ho
  rw [dictItem, o1]
  simp only
  rcases kidsAre_lookup k _ o3 with ⟨e0, e⟩ | ⟨t, s, e1, e2, e3⟩
  · simp [e, e0]
  · rw [e1, e2]
    simp

/-- **C42.** `root[k1]...[kn].setdefault(k, v)` on objects.  If nothing stands at `k1, ..., kn, k` it returns a new root like `set`; if
    something does, it returns the dictionary it was called on, not the root, and makes and changes no object. -/
theorem C42_objects_setdefault (h : DStore) (root r : Nat) (kids : List (Key × Tree)) (hroot : ObjIs h root none kids) (ks : List Key)
    (hr : dictWalk root ks h = some r) (k : Key) (a : DArg) (t : Tree) (ha : ArgIs h a t) :
    (reads (.node kids) (ks ++ [k]) = none →
      ∃ r' h' kids', Returns (fun fuel up => setdefaultRun fuel up r k a h) (r', h') ∧ h <+: h' ∧ ObjIs h' root none kids ∧
        ObjIs h' r' none kids' ∧ (∀ q, reads (.node kids') (ks ++ k :: q) = reads t q) ∧
        (∀ p, ¬ (ks ++ [k]) <+: p → ¬ p <+: ks → reads (.node kids') p = reads (.node kids) p) ∧
        (∀ p, p <+: ks → ∃ x, reads (.node kids') p = some (.node x))) ∧
    (reads (.node kids) (ks ++ [k]) ≠ none → Returns (fun fuel up => setdefaultRun fuel up r k a h) (r, h)) := by
  obtain ⟨c, c1, c2⟩ := dictIs_walk ks (d := ⟨kids, []⟩) hroot hr
  have hl := goTo_lookup k ks _ c c1
  have hi := dictIs_lookup c2 k
  refine ⟨fun hn => ?_, fun hs => ⟨0, fun fuel up _ _ => ?_⟩⟩
  · have : ∀ fuel up, setdefaultRun fuel up r k a h = setRun fuel up r k a h := by
      intro fuel up
      rw [setdefaultRun, hi.2 (hl ▸ hn)]
    simp only [this]
    exact C42_objects_set h root r kids hroot ks hr k a t ha
  · have : dictItem r k h ≠ none := fun e => hs (hl.trans (hi.1 e))
    show setdefaultRun fuel up r k a h = some (r, h)
    rw [setdefaultRun]
    split
    · rename_i e; exact absurd e this
    · rfl

/-- a key that is there and one that is not, in the dictionary at `"a"` -/
example : ∃ h, newDict 3 (exKids.map (fun e => (e.1, .plain e.2))) none [] = some (0, h) ∧
    dictWalk 0 [.text "a".toList] h = some 1 ∧
    setdefaultRun 3 3 1 (.text "c".toList) (.plain (.leaf (.num (.int 5)))) h = some (1, h) ∧
    ∃ h', setdefaultRun 3 3 1 (.text "new".toList) (.plain (.leaf (.num (.int 5)))) h = some (5, h') ∧ h'.length = 8 :=
  ⟨_, rfl, rfl, rfl, _, rfl, rfl⟩

end Verif.Props
