import Verif.Model.TilePool

namespace Verif.Proofs
open Verif.Model

/-- every pooled object has the attributes its hash was computed from, with a number in 0..9 -/
structure PoolOK (st : PoolState) : Prop where
  attr : ∀ h o, st.pool.lookup h = some o →
    ∃ c n, h = tileHashNum c n ∧ 0 ≤ n ∧ n ≤ 9 ∧ st.objs[o]? = some (c, n, false)

/-- what a later state keeps -/
structure PoolLe (st st' : PoolState) : Prop where
  pool : ∀ h o, st.pool.lookup h = some o → st'.pool.lookup h = some o
  objs : ∀ (o : Nat) x, st.objs[o]? = some x → st'.objs[o]? = some x

theorem PoolLe.refl (st : PoolState) : PoolLe st st := ⟨fun _ _ h => h, fun _ _ h => h⟩
theorem PoolLe.trans {a b c : PoolState} (h1 : PoolLe a b) (h2 : PoolLe b c) : PoolLe a c :=
  ⟨fun h o x => h2.pool h o (h1.pool h o x), fun o x y => h2.objs o x (h1.objs o x y)⟩

theorem hash_inj {c c' : Suit} {n n' : Int} (h : tileHashNum c n = tileHashNum c' n')
    (h1 : 0 ≤ n) (h2 : n ≤ 9) (h3 : 0 ≤ n') (h4 : n' ≤ 9) : c = c' ∧ n = n' := by
  unfold tileHashNum at h
  cases c <;> cases c' <;> simp [Suit.ord] at h ⊢ <;> omega

theorem lookup_append {l : List (Int × Nat)} {k : Int} {v : Nat} (h : Int) :
    (l ++ [(k, v)]).lookup h = match l.lookup h with
      | some o => some o
      | none => if h = k then some v else none := by
  induction l with
  | nil => simp [List.lookup]; by_cases hk : h = k
           · simp [hk]
           · have : (h == k) = false := by simpa using hk
             simp [hk, this]
  | cons e l ih =>
    obtain ⟨k', v'⟩ := e
    simp only [List.cons_append, List.lookup]
    by_cases hk : h == k'
    · simp [hk]
    · simp only [hk, ih]

/-- result of one constructor call on an in-range number -/
def CallOK (fuel : Nat) (st : PoolState) (n : Int) (c : Suit) : Prop :=
  ∃ o st', newTile fuel st n c = some (o, st') ∧ PoolOK st' ∧ PoolLe st st' ∧
    st'.objs[o]? = some (c, n, false) ∧ st'.pool.lookup (tileHashNum c n) = some o

theorem newTile_hit {fuel : Nat} {st : PoolState} {n : Int} {c : Suit} {o : Nat} (hok : PoolOK st)
    (h0 : 0 ≤ n) (h9 : n ≤ 9) (h : st.pool.lookup (tileHashNum c n) = some o) :
    newTile (fuel + 1) st n c = some (o, st) ∧ st.objs[o]? = some (c, n, false) := by
  constructor
  · simp [newTile, h]
  · obtain ⟨c', n', h1, h2, h3, h4⟩ := hok.attr _ _ h
    obtain ⟨rfl, rfl⟩ := hash_inj h1 h0 h9 h2 h3
    exact h4

theorem newTile_ok (fuel : Nat) {st : PoolState} (hok : PoolOK st) (n : Int) (c : Suit)
    (h0 : 0 ≤ n) (h9 : n ≤ 9) (hf : 9 - n + 2 ≤ fuel) : CallOK fuel st n c := by
  induction fuel generalizing st n with
  | zero => omega
  | succ fuel ih =>
    cases hl : st.pool.lookup (tileHashNum c n) with
    | some o =>
      obtain ⟨h1, h2⟩ := newTile_hit (fuel := fuel) hok h0 h9 hl
      exact ⟨o, st, h1, hok, PoolLe.refl _, h2, hl⟩
    | none =>
      -- the state after registering the new object
      have key : ∀ st1 : PoolState, st1 = ⟨st.objs ++ [(c, n, false)],
          st.pool ++ [(tileHashNum c n, st.objs.length)], st.akaPool⟩ →
          PoolOK st1 ∧ PoolLe st st1 ∧ st1.pool.lookup (tileHashNum c n) = some st.objs.length ∧
          st1.objs[st.objs.length]? = some (c, n, false) := by
        rintro st1 rfl
        refine ⟨⟨?_⟩, ⟨?_, ?_⟩, ?_, ?_⟩
        · intro h o ho
          rw [lookup_append] at ho
          cases hh : st.pool.lookup h with
          | some o' =>
            rw [hh] at ho; simp at ho; subst ho
            obtain ⟨c', n', h1, h2, h3, h4⟩ := hok.attr _ _ hh
            refine ⟨c', n', h1, h2, h3, ?_⟩
            have := (List.getElem?_eq_some_iff.1 h4).1
            rw [List.getElem?_append_left this]; exact h4
          | none =>
            rw [hh] at ho
            simp only at ho
            split at ho
            · rename_i he
              simp at ho; subst ho
              exact ⟨c, n, he, h0, h9, by simp⟩
            · simp at ho
        · intro h o ho; rw [lookup_append, ho]
        · intro o x hx
          have := (List.getElem?_eq_some_iff.1 hx).1
          rw [List.getElem?_append_left this]; exact hx
        · rw [lookup_append, hl]; simp
        · simp
      obtain ⟨hok1, hle1, hlk1, hob1⟩ := key _ rfl
      -- five calls that hit
      have tail : ∀ st2 : PoolState, PoolOK st2 →
          st2.pool.lookup (tileHashNum c n) = some st.objs.length → 1 ≤ fuel →
          newTile fuel st2 n c = some (st.objs.length, st2) := by
        intro st2 h2 hlk hfu
        obtain ⟨f, rfl⟩ : ∃ f, fuel = f + 1 := ⟨fuel - 1, by omega⟩
        exact (newTile_hit h2 h0 h9 hlk).1
      have hfu : 1 ≤ fuel := by omega
      simp only [newTile, hl, CallOK]
      by_cases hc : c ≠ Suit.z ∧ n ≤ 9 - 3 + 1
      · simp only [hc, if_true, ne_eq, not_false_eq_true, and_self]
        generalize hst1 : (⟨st.objs ++ [(c, n, false)],
          st.pool ++ [(tileHashNum c n, st.objs.length)], st.akaPool⟩ : PoolState) = st1 at *
        obtain ⟨o2, st2, e2, hok2, hle2, _, _⟩ := ih hok1 (n + 1) (by omega) (by omega) (by omega)
        obtain ⟨o3, st3, e3, hok3, hle3, _, _⟩ := ih hok2 (n + 2) (by omega) (by omega) (by omega)
        have hle13 := hle2.trans hle3
        have e4 := tail st3 hok3 (hle13.pool _ _ hlk1) hfu
        refine ⟨st.objs.length, st3, ?_, hok3, hle1.trans hle13, hle13.objs _ _ hob1,
          hle13.pool _ _ hlk1⟩
        simp [tail st1 hok1 hlk1 hfu, e2, e3, e4]
      · simp only [hc, if_false]
        generalize hst1 : (⟨st.objs ++ [(c, n, false)],
          st.pool ++ [(tileHashNum c n, st.objs.length)], st.akaPool⟩ : PoolState) = st1 at *
        have e4 := tail st1 hok1 hlk1 hfu
        refine ⟨st.objs.length, st1, ?_, hok1, hle1, hob1, hlk1⟩
        simp [e4]

theorem poolOK_init : PoolOK PoolState.init := ⟨by intro h o ho; simp [PoolState.init] at ho⟩

theorem runTiles_ok (calls : List (Int × Suit)) (hin : ∀ x ∈ calls, 0 ≤ x.1 ∧ x.1 ≤ 9)
    {st : PoolState} (hok : PoolOK st) :
    ∃ st', runTiles st calls = some st' ∧ PoolOK st' ∧ PoolLe st st' := by
  induction calls generalizing st with
  | nil => exact ⟨st, rfl, hok, PoolLe.refl _⟩
  | cons x calls ih =>
    obtain ⟨n, c⟩ := x
    obtain ⟨h0, h9⟩ := hin (n, c) (by simp)
    obtain ⟨o, st1, e1, hok1, hle1, _, _⟩ := newTile_ok poolFuel hok n c h0 h9
      (by simp only [poolFuel]; simp only at h0; omega)
    obtain ⟨st2, e2, hok2, hle2⟩ := ih (fun x hx => hin x (by simp [hx])) hok1
    exact ⟨st2, by simp [runTiles, e1, e2], hok2, hle1.trans hle2⟩

end Verif.Proofs
