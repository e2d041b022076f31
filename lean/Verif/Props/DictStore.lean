import Verif.Proofs.DictExec
import Verif.Props.Executor

/-! Properties C42 and C43 with `TransferDict` objects that refer to each other. -/
namespace Verif.Props
open Verif.Py Verif.Model Verif.Spec Verif.Proofs

/-- **C42**: `TransferDict(d)` returns, whatever objects exist already, an object without parent that stands for `d`: every dictionary in
    `d` has become an object whose parent and key lead back.  No existing object has changed. -/
theorem C42_objects_new (h : DStore) (kids : List (Key × Tree)) :
    ∃ r h', Returns (fun fuel _ => newDict fuel (kids.map (fun e => (e.1, .plain e.2))) none h) (r, h') ∧ h <+: h' ∧ ObjIs h' r none kids := by
  obtain ⟨h', h1, h2, h3⟩ := new_returns (argsAre_plain h kids) none
  exact ⟨_, h', h1, h2, h3⟩

/-- `root[k1]...[kn].set(k, v)`, where `v` is a value, a dictionary or a `TransferDict`, returns an object without parent.  It stands for a
    dictionary in which `v` stands at `k1, ..., kn, k`, in which every path that does not lead through that place reads as in `root`, and in
    which the dictionaries on the way are still dictionaries.  No object that existed has changed, so `root` stands for what it stood for. -/
theorem C42_objects_set (h : DStore) (root r : Nat) (kids : List (Key × Tree)) (hroot : ObjIs h root none kids) (ks : List Key)
    (hr : dictWalk root ks h = some r) (k : Key) (a : DArg) (t : Tree) (ha : ArgIs h a t) :
    ∃ r' h' kids', Returns (fun fuel up => setRun fuel up r k a h) (r', h') ∧ h <+: h' ∧ ObjIs h' root none kids ∧ ObjIs h' r' none kids' ∧
      (∀ q, reads (.node kids') (ks ++ k :: q) = reads t q) ∧
      (∀ p, ¬ (ks ++ [k]) <+: p → ¬ p <+: ks → reads (.node kids') p = reads (.node kids) p) ∧
      (∀ p, p <+: ks → ∃ x, reads (.node kids') p = some (.node x)) := by
  obtain ⟨c, c1, c2⟩ := dictIs_walk ks (d := ⟨kids, []⟩) hroot hr
  obtain ⟨r', h', e, p, o⟩ := set_returns c2 ha k
  obtain ⟨_, h1, h2, h3⟩ := C42_set ⟨kids, []⟩ c rfl ks c1 k t
  exact ⟨r', h', _, e, p, ObjIs.mono p hroot, o, h1, h2, h3⟩

/-- `root[k1]...[kn].drop(k)` likewise, with nothing at `k1, ..., kn, k`. -/
theorem C42_objects_drop (h : DStore) (root r : Nat) (kids : List (Key × Tree)) (hroot : ObjIs h root none kids) (ks : List Key)
    (hr : dictWalk root ks h = some r) (k : Key) :
    ∃ r' h' kids', Returns (fun fuel up => dropRun fuel up r k h) (r', h') ∧ h <+: h' ∧ ObjIs h' root none kids ∧ ObjIs h' r' none kids' ∧
      (∀ q, reads (.node kids') (ks ++ k :: q) = none) ∧
      (∀ p, ¬ (ks ++ [k]) <+: p → ¬ p <+: ks → reads (.node kids') p = reads (.node kids) p) ∧
      (∀ p, p <+: ks → ∃ x, reads (.node kids') p = some (.node x)) := by
  obtain ⟨c, c1, c2⟩ := dictIs_walk ks (d := ⟨kids, []⟩) hroot hr
  obtain ⟨r', h', e, p, o⟩ := drop_returns c2 k
  obtain ⟨h1, h2, h3⟩ := dropRun_reads ⟨kids, []⟩ c ks rfl c1 k
  exact ⟨r', h', _, e, p, ObjIs.mono p hroot, o, h1, h2, h3⟩

/-- After any sequence of writes, each through the root returned by the one before, the last root reads at a place the last value written
    there, and as the first root at places nobody wrote to; no object from before has changed. -/
theorem C42_objects_history (h h' : DStore) (r r' : Nat) (ws : List Write) (hw : WritesRun h r ws h' r') (kids : List (Key × Tree))
    (hroot : ObjIs h r none kids) :
    h <+: h' ∧ ObjIs h' r none kids ∧ ∃ kids', ObjIs h' r' none kids' ∧ ∀ p, (∀ w ∈ ws, w.full = p ∨ Apart p w.full) →
      reads (.node kids') p = (match lastWrite p ws with | some v => some (.leaf v) | none => reads (.node kids) p) := by
  obtain ⟨p1, root', e, _, o⟩ := writesRun_all hw hroot
  exact ⟨p1, ObjIs.mono p1 hroot, root'.kids, o, fun p hp => (C42_history ws ⟨kids, []⟩ root' rfl e p hp).2⟩

/-- **C43**: an executor, whatever objects there are, yields for each command an object that stands for the state described in `C43_states`,
    and stops with the exception described in `C43_errors`.  What it has yielded no later command changes: at the end the objects that
    existed when a state was yielded are as they were then. -/
theorem C43_objects (strict : Bool) (cs : List Cmd) (h : DStore) :
    ∃ ys h', Returns (fun fuel up => executeRun fuel up strict cs h) (ys, (execute strict cs).2, h') ∧ h <+: h' ∧
      ys.length = (execute strict cs).1.length ∧
      ∀ (k : Nat) d, (execute strict cs).1[k]? = some d →
        ∃ r hk, ys[k]? = some (r, hk) ∧ hk <+: h' ∧ ObjIs hk r none d.kids ∧ ObjIs h' r none d.kids := by
  obtain ⟨r0, h0, ⟨n0, e0⟩, p0, o0⟩ := C42_objects_new h initialTree.kids
  obtain ⟨ys, h', ⟨n1, e1⟩, p1, l1, k1⟩ := executeRunFrom_ok strict cs o0
  refine ⟨ys, h', ⟨max n0 n1, fun f u a b => ?_⟩, p0.trans p1, l1, fun k d hd => ?_⟩
  · have t0 := e0 f u (by omega) (by omega)
    have t1 := e1 f u (by omega) (by omega)
    simp only at t0 t1
    simp only [executeRun, t0]
    exact t1
  · obtain ⟨⟨r, hk⟩, y1, y2, y3⟩ := k1 k d hd
    exact ⟨r, hk, y1, y3, y2, ObjIs.mono y3 y2⟩

/-- the dictionary `{"a": {"b": {}, "c": 1}, "d": 2}` -/
def exKids : List (Key × Tree) :=
  [(.text "a".toList, .node [(.text "b".toList, .node []), (.text "c".toList, .leaf (.num (.int 1)))]), (.text "d".toList, .leaf (.num (.int 2)))]

/-- three objects; writing at `["a"]["b"]` makes six more (one, then two, then three: each constructor copies what is inside) -/
example : ∃ h, newDict 3 (exKids.map (fun e => (e.1, .plain e.2))) none [] = some (0, h) ∧ h.length = 3 ∧
    dictWalk 0 [.text "a".toList, .text "b".toList] h = some 2 ∧
    ∃ h', setRun 3 3 2 (.text "x".toList) (.plain (.leaf (.num (.int 5)))) h = some (6, h') ∧ h'.length = 9 ∧
      dictWalk 6 [.text "a".toList, .text "b".toList] h' = some 8 := ⟨_, rfl, rfl, rfl, _, rfl, rfl, rfl⟩

end Verif.Props
