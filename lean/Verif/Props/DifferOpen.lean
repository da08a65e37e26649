import Verif.Lemmas.DifferOpen
import Verif.Props.Differ
/-! # Diffs with a progress callback -/
set_option linter.unusedSectionVars false

namespace DS
variable {V E : Type} [PyVal V]

theorem prefix_start {w : World V E} {dst src : Adapter V} : (startDiff dst src w).trace = w.trace := rfl

/-- **C81** Whatever the callback does, it is called with strictly increasing positive `current` values and one constant `total`, the number of
objects in the two stores when the diff began.  Every call returned, or the last one raised; in that case the diff raises the same exception, and
does nothing more: the callback left the world as it is.  If the diff returns, the last value is the number of models processed. -/
theorem C81_any_callback (cb : Nat → Nat → M V E Unit) (n : Nat) (src dst : Adapter V) (dc : DiffClass V) (flags : Nat) (w : World V E) :
    ∃ cs : List Nat,
      (oDiffFrom cb n dst src dc flags w).2.trace = w.trace ++
        cs.map (fun c => Event.diffProgress c (countStore src.ref.store w + countStore dst.ref.store w)) ∧
      (0 :: cs).Pairwise (· < ·) ∧
      ((∀ c ∈ cs, Passed cb c (countStore src.ref.store w + countStore dst.ref.store w)) ∨
        ∃ cs0 c e, cs = cs0 ++ [c] ∧ (∀ c ∈ cs0, Passed cb c (countStore src.ref.store w + countStore dst.ref.store w)) ∧
          Raised cb c (countStore src.ref.store w + countStore dst.ref.store w) e (oDiffFrom cb n dst src dc flags w).2 ∧
          (oDiffFrom cb n dst src dc flags w).1 = .error e) ∧
      ∀ d, (oDiffFrom cb n dst src dc flags w).1 = .ok d → (0 :: cs).getLast (by simp) = d.processed := by
  have hend : ∀ d, (oDiffFrom cb n dst src dc flags w).1 = .ok d → (oDiffFrom cb n dst src dc flags w).2.dproc = d.processed := by
    intro d hd
    rw [oDiffFrom_eq] at hd ⊢
    cases hl : oLoops cb ⟨src, dst, flags⟩ n (startDiff dst src w) with
    | mk r w1 =>
      cases r with
      | error e => rw [M.bind_err hl] at hd; cases hd
      | ok kids =>
        rw [M.bind_ok hl] at hd ⊢
        cases hd
        rfl
  obtain ⟨_, evs, h1, h2, h3⟩ : Went cb (startDiff dst src w) (oDiffFrom cb n dst src dc flags w) := by
    rw [oDiffFrom_eq]
    exact Wents.bind (Wents.loops n) (fun kids => Wents.finish dc kids) _
  obtain ⟨cs, rfl, c1, c2⟩ := chain_list h2
  refine ⟨cs, h1, c1, ?_, fun d hd => c2.trans (hend d hd)⟩
  rcases h3 with h3 | ⟨evs0, c, e, h4, h5, h6, h7⟩
  · exact .inl (fun c hc => h3 c _ (List.mem_map.2 ⟨c, hc, rfl⟩))
  · refine .inr ?_
    obtain ⟨cs0, l, rfl, rfl, hl⟩ := List.map_eq_append_iff.1 h4
    obtain ⟨c', l', rfl, hc', hl'⟩ := List.map_eq_cons_iff.1 hl
    cases List.map_eq_nil_iff.1 hl'
    cases hc'
    exact ⟨cs0, _, e, rfl, fun c hc => h5 c _ (List.mem_map.2 ⟨c, hc, rfl⟩), h6, h7⟩

/-- **C81** A callback that only looks does not influence the diff: with it, the diff makes the same calls and ends as it does without callback,
unless a call of the callback raises; then the calls up to that one are made and the diff raises the exception of the callback.  In either case the
contents of every adapter, every object that existed and the Redis data are as they were. -/
theorem C81_looking_callback {cb : Nat → Nat → M V E Unit} (hcb : OnlyLooks cb) (n : Nat) (src dst : Adapter V) (dc : DiffClass V) (flags : Nat)
    (w : World V E) (h : w.OK) :
    (∀ A : Adapter V, snap A (oDiffFrom cb n dst src dc flags w).2 = snap A w) ∧
    (∀ r, r < w.next → (oDiffFrom cb n dst src dc flags w).2.heap r = w.heap r) ∧
    (∀ sid t u, findRef (oDiffFrom cb n dst src dc flags w).2 sid t u = findRef w sid t u) ∧
    (oDiffFrom cb n dst src dc flags w).2.redis = w.redis ∧
    ∃ evs evs', (oDiffFrom cb n dst src dc flags w).2.trace = w.trace ++ evs ∧ (diffFrom n dst src dc flags w).2.trace = w.trace ++ evs' ∧
      (((oDiffFrom cb n dst src dc flags w).1 = (diffFrom n dst src dc flags w).1 ∧ evs = evs') ∨
        (evs <+: evs' ∧ ∃ evs0 c e, evs = evs0 ++ [.diffProgress c (countStore src.ref.store w + countStore dst.ref.store w)] ∧
          Raised cb c (countStore src.ref.store w + countStore dst.ref.store w) e (oDiffFrom cb n dst src dc flags w).2 ∧
          (oDiffFrom cb n dst src dc flags w).1 = .error e)) := by
  have hAt : At ⟨src, dst, flags⟩ (rawSnap src w) (rawSnap dst w) (startDiff dst src w) := ⟨h.refs_lt, h.tbl_wf, rfl, rfl⟩
  have hl := Lock.bind (Lock.loops (C := ⟨src, dst, flags⟩) (S := rawSnap src w) (D := rawSnap dst w) hcb n) (fun kids => Lock.finish dc kids)
    (startDiff dst src w) (startDiff dst src w) hAt hAt rfl rfl
  rw [← oDiffFrom_eq, ← diffFrom_loops] at hl
  obtain ⟨h1, _, evs, evs', h2, h3, h4⟩ := hl
  refine ⟨fun A => h1.snap_eq h.refs_lt h.tbl_wf A, h1.heap_eq, h1.findRef_eq, h1.redis_eq, evs, evs', h2, h3, ?_⟩
  rcases h4 with ⟨h4, h5, _⟩ | h4
  · exact .inl ⟨h4, h5⟩
  · exact .inr h4

/-- **C81** In particular, a callback that only looks and never raises is as good as none. -/
theorem C81_quiet_callback {cb : Nat → Nat → M V E Unit} (hcb : OnlyLooks cb) (hq : ∀ c t w, (cb c t w).1 = .ok ()) (n : Nat)
    (src dst : Adapter V) (dc : DiffClass V) (flags : Nat) (w : World V E) (h : w.OK) :
    (oDiffFrom cb n dst src dc flags w).1 = (diffFrom n dst src dc flags w).1 ∧
    (oDiffFrom cb n dst src dc flags w).2.trace = (diffFrom n dst src dc flags w).2.trace := by
  obtain ⟨_, _, _, _, evs, evs', h1, h2, h3⟩ := C81_looking_callback hcb n src dst dc flags w h
  rcases h3 with ⟨h3, rfl⟩ | ⟨_, _, c, e, _, ⟨w1, h4⟩, _⟩
  · exact ⟨h3, by rw [h1, h2]⟩
  · exfalso
    have := congrArg Prod.fst h4
    have hq := hq c (countStore src.ref.store w + countStore dst.ref.store w) w1
    change (cb c _ w1).1 = _ at this
    rw [hq] at this
    cases this

end DS
