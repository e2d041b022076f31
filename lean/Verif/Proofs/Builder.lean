import Verif.Spec.Translate
import Verif.Proofs.Executor

namespace Verif.Proofs
open Verif.Py Verif.Model Verif.Spec

variable {β : Type}

theorem lookup_dictUpdate (d e : KwDict β) (he : KwOk e) (k : Str) :
    (dictUpdate d e).lookup k = override (fun k => d.lookup k) e k := by
  unfold dictUpdate
  induction e generalizing d with
  | nil => simp [override]
  | cons kv e ih =>
    obtain ⟨a, v⟩ := kv
    simp only [KwOk, List.map_cons, List.nodup_cons] at he
    rw [List.foldl_cons, ih _ he.2]
    unfold override
    by_cases hk : k = a
    · subst hk
      have hn : e.lookup k = none := by
        rw [List.lookup_eq_none_iff]
        intro p hp
        simp only [bne_iff_ne, ne_eq, beq_eq_false_iff_ne]
        intro hc
        exact he.1 (List.mem_map.2 ⟨p, hp, hc.symm⟩)
      simp [hn, lookup_putKey]
    · have : (k == a) = false := by simpa using hk
      simp [List.lookup_cons, this, lookup_putKey, Ne.symm hk, hk]

theorem mergedDict_push (stack : List (KwDict β)) (kw : KwDict β) (hk : KwOk kw) :
    (fun k => (mergedDict (stackPush stack kw)).lookup k) = override (fun k => (mergedDict stack).lookup k) kw := by
  funext k
  unfold mergedDict stackPush
  rw [List.foldl_append]
  exact lookup_dictUpdate _ _ hk k

mutual
theorem runB_scoped (bad : (Str → Option β) → Bool) (stack : List (KwDict β)) (seen : List (KwDict β)) :
    ∀ p : BProg β, ProgOk p →
      (runB bad ⟨stack, seen, false⟩ p).stack = stack ∧
      (runB bad ⟨stack, seen, false⟩ p).raised = (scopedB bad (fun k => (mergedDict stack).lookup k) p).2 ∧
      ∃ more, (runB bad ⟨stack, seen, false⟩ p).seen = seen ++ more ∧
        more.map (fun m => fun k => m.lookup k) = (scopedB bad (fun k => (mergedDict stack).lookup k) p).1
  | .call kw, h => by
    have hm := mergedDict_push stack kw h
    refine ⟨by simp [runB, builderCall, stackPush, stackPop], ?_, [mergedDict (stackPush stack kw)], rfl, ?_⟩
    · show bad _ = bad _
      rw [hm]
    · simp only [List.map_cons, List.map_nil, scopedB]
      rw [hm]
  | .raise, _ => ⟨rfl, rfl, [], by simp [runB], rfl⟩
  | .block kw body, h => by
    simp only [ProgOk] at h
    obtain ⟨h1, h2, h3⟩ := runBs_scoped bad (stackPush stack kw) seen body h.2
    rw [mergedDict_push stack kw h.1] at h2 h3
    refine ⟨?_, h2, h3⟩
    show stackPop _ = _
    rw [h1]
    simp [stackPush, stackPop]
  | .guard body, h => by
    simp only [ProgOk] at h
    obtain ⟨h1, h2, h3⟩ := runBs_scoped bad stack seen body h
    exact ⟨h1, rfl, h3⟩
theorem runBs_scoped (bad : (Str → Option β) → Bool) (stack : List (KwDict β)) (seen : List (KwDict β)) :
    ∀ ps : List (BProg β), ProgsOk ps →
      (runBs bad ⟨stack, seen, false⟩ ps).stack = stack ∧
      (runBs bad ⟨stack, seen, false⟩ ps).raised = (scopedBs bad (fun k => (mergedDict stack).lookup k) ps).2 ∧
      ∃ more, (runBs bad ⟨stack, seen, false⟩ ps).seen = seen ++ more ∧
        more.map (fun m => fun k => m.lookup k) = (scopedBs bad (fun k => (mergedDict stack).lookup k) ps).1
  | [], _ => ⟨rfl, rfl, [], by simp [runBs], rfl⟩
  | p :: ps, h => by
    simp only [ProgsOk] at h
    obtain ⟨h1, h2, more, h3, h4⟩ := runB_scoped bad stack seen p h.1
    simp only [runBs, scopedBs]
    by_cases hr : (scopedB bad (fun k => (mergedDict stack).lookup k) p).2 = true
    · rw [hr] at h2
      simp only [hr, h2, if_true]
      exact ⟨h1, trivial, more, h3, h4⟩
    · have hr' : (scopedB bad (fun k => (mergedDict stack).lookup k) p).2 = false := by simpa using hr
      rw [hr'] at h2
      have e : runB bad ⟨stack, seen, false⟩ p = ⟨stack, seen ++ more, false⟩ := by
        cases hx : runB bad ⟨stack, seen, false⟩ p with
        | mk a b c => rw [hx] at h1 h2 h3; simp only at h1 h2 h3; rw [h1, h2, h3]
      obtain ⟨i1, i2, more', i3, i4⟩ := runBs_scoped bad stack (seen ++ more) ps h.2
      rw [e]
      simp only [hr', Bool.false_eq_true, if_false]
      exact ⟨i1, i2, more ++ more', by rw [i3]; simp, by rw [List.map_append, h4, i4]⟩
end

end Verif.Proofs
