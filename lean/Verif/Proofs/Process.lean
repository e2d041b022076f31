import Verif.Proofs.TranslateScore2

namespace Verif.Proofs
open Verif.Py Verif.Model Verif.Spec

/-- `next` of one iterator, `k` times in a row -/
def drain (left : Ctx → TEvent → Ctx) : Nat → Ctx → Iter → List Out
  | 0, _, _ => []
  | k + 1, ctx, it =>
    let r := it.next left ctx
    r.2.2 :: drain left k r.1 r.2.1

theorem drain_resume (left : Ctx → TEvent → Ctx) (strict : Bool) :
    ∀ (events : List TEvent) (ctx : Ctx),
      (∀ r c', listAll left strict ctx events = (c', .ok r) →
        ∀ it, it.next left ctx = resume left strict ctx events →
        drain left (r.length + 1) ctx it = r.map Out.cmd ++ [.stop]) ∧
      (∀ x c', listAll left strict ctx events = (c', .error x) →
        ∃ r : List Cmd, ∀ it, it.next left ctx = resume left strict ctx events →
        drain left (r.length + 1) ctx it = r.map Out.cmd ++ [.error x]) := by
  intro events
  induction events with
  | nil =>
    intro ctx
    refine ⟨?_, ?_⟩
    · intro r c' h it hit
      simp only [listAll, Prod.mk.injEq, Except.ok.injEq] at h
      obtain ⟨_, rfl⟩ := h
      simp [drain, hit, resume]
    · intro x c' h
      simp [listAll] at h
  | cons t ts ih =>
    intro ctx
    -- handing out the rest of an event's commands
    have pend : ∀ (cs : List Cmd) (ctx1 : Ctx), 
        (∀ r c', listAll left strict ctx1 ts = (c', .ok r) →
          drain left ((cs ++ r).length + 1) ctx1 (.live strict cs ts) = (cs ++ r).map Out.cmd ++ [.stop]) ∧
        (∀ x c', listAll left strict ctx1 ts = (c', .error x) →
          ∃ r : List Cmd, drain left ((cs ++ r).length + 1) ctx1 (.live strict cs ts) = (cs ++ r).map Out.cmd ++ [.error x]) := by
      intro cs
      induction cs with
      | nil =>
        intro ctx1
        refine ⟨?_, ?_⟩
        · intro r c' h
          exact (ih ctx1).1 r c' h _ rfl
        · intro x c' h
          obtain ⟨r, hr⟩ := (ih ctx1).2 x c' h
          exact ⟨r, hr _ rfl⟩
      | cons c cs ihc =>
        intro ctx1
        refine ⟨?_, ?_⟩
        · intro r c' h
          have := (ihc ctx1).1 r c' h
          show (Out.cmd c) :: drain left ((cs ++ r).length + 1) ctx1 (.live strict cs ts) = _
          rw [this]; rfl
        · intro x c' h
          obtain ⟨r, hr⟩ := (ihc ctx1).2 x c' h
          refine ⟨r, ?_⟩
          show (Out.cmd c) :: drain left ((cs ++ r).length + 1) ctx1 (.live strict cs ts) = _
          rw [hr]; rfl
    cases hc : callTranslator strict ctx t with
    | error x =>
      refine ⟨?_, ?_⟩
      · intro r c' h
        simp [listAll, hc] at h
      · intro y c' h
        simp only [listAll, hc, Prod.mk.injEq, Except.error.injEq] at h
        obtain ⟨_, rfl⟩ := h
        refine ⟨[], ?_⟩
        intro it hit
        simp [drain, hit, resume, hc]
    | ok v =>
      obtain ⟨ctx1, l⟩ := v
      have hl : ∀ c' r, listAll left strict ctx (t :: ts) = (c', .ok r) →
          ∃ r', listAll left strict ctx1 ts = (c', .ok r') ∧ r = l ++ r' := by
        intro c' r h
        simp only [listAll, hc] at h
        cases hx : listAll left strict ctx1 ts with
        | mk c2 o =>
          rw [hx] at h
          cases o with
          | error y => simp at h
          | ok r' =>
            simp only [Prod.mk.injEq, Except.ok.injEq] at h
            exact ⟨r', by rw [h.1], h.2.symm⟩
      have hl' : ∀ c' x, listAll left strict ctx (t :: ts) = (c', .error x) →
          listAll left strict ctx1 ts = (c', .error x) := by
        intro c' r h
        simp only [listAll, hc] at h
        cases hx : listAll left strict ctx1 ts with
        | mk c2 o =>
          rw [hx] at h
          cases o with
          | ok y => simp at h
          | error r' => simpa using h
      cases l with
      | nil =>
        refine ⟨?_, ?_⟩
        · intro r c' h it hit
          obtain ⟨r', h1, h0⟩ := hl c' r h
          rw [h0]
          have h2 := (ih ctx1).1 r' c' h1 (.live strict [] ts) rfl
          simp only [resume, hc] at hit
          simp only [drain, hit]
          simp only [drain, Iter.next] at h2
          exact h2
        · intro x c' h
          obtain ⟨r, hr⟩ := (ih ctx1).2 x c' (hl' c' x h)
          refine ⟨r, ?_⟩
          intro it hit
          have h2 := hr (.live strict [] ts) rfl
          simp only [resume, hc] at hit
          simp only [drain, hit]
          simp only [drain, Iter.next] at h2
          exact h2
      | cons c cs =>
        refine ⟨?_, ?_⟩
        · intro r c' h it hit
          obtain ⟨r', h1, rfl⟩ := hl c' r h
          have h2 := (pend cs ctx1).1 r' c' h1
          simp only [resume, hc] at hit
          show drain left ((cs ++ r').length + 1 + 1) ctx it = _
          rw [drain]
          simp only [hit]
          rw [h2]; rfl
        · intro x c' h
          obtain ⟨r, hr⟩ := (pend cs ctx1).2 x c' (hl' c' x h)
          refine ⟨c :: (cs ++ r), ?_⟩
          intro it hit
          simp only [resume, hc] at hit
          show drain left ((cs ++ r).length + 1 + 1) ctx it = _
          rw [drain]
          simp only [hit]
          rw [hr]; rfl

/-- the `k` calls of `next` as steps of the program -/
theorem drain_proc (left : Ctx → TEvent → Ctx) (i : Nat) :
    ∀ (k : Nat) (p : Proc) (it : Iter), p.iters[i]? = some it →
      ∀ (outs : List (Option Out)), outs = ((List.replicate k (ProcOp.next i)).foldl
        (fun (s : Proc × List (Option Out)) o => ((s.1.step left o).1, s.2 ++ [(s.1.step left o).2])) (p, [])).2 →
      outs = (drain left k p.ctx it).map some := by
  have gen : ∀ (k : Nat) (p : Proc) (it : Iter) (acc : List (Option Out)), p.iters[i]? = some it →
      ((List.replicate k (ProcOp.next i)).foldl
        (fun (s : Proc × List (Option Out)) o => ((s.1.step left o).1, s.2 ++ [(s.1.step left o).2])) (p, acc)).2 =
        acc ++ (drain left k p.ctx it).map some := by
    intro k
    induction k with
    | zero => intro p it acc h; simp [drain]
    | succ k ih =>
      intro p it acc h
      rw [List.replicate_succ, List.foldl_cons]
      have hlt : i < p.iters.length := by
        have := List.getElem?_eq_some_iff.1 h
        exact this.1
      have e : p.step left (.next i) = (⟨(it.next left p.ctx).1, p.iters.set i (it.next left p.ctx).2.1⟩,
          some (it.next left p.ctx).2.2) := by
        simp only [Proc.step, h]
      rw [e]
      rw [ih _ (it.next left p.ctx).2.1 _ (by simp [hlt])]
      simp [drain]
  intro k p it h outs ho
  rw [ho, gen k p it [] h, List.nil_append]

end Verif.Proofs
