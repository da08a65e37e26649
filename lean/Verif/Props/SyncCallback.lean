import Verif.Model.SyncCallback
import Verif.Props.DifferOpen
import Verif.Props.OpenSync
/-! # Syncs whose callback is called during the comparison too -/
set_option linter.unusedSectionVars false

namespace DS
variable {V E : Type} [PyVal V]

theorem oDiffFrom_cls {cb : Nat → Nat → M V E Unit} {n : Nat} {dst src : Adapter V} {dc : DiffClass V} {flags : Nat} {w w1 : World V E} {d : Diff V}
    (h : oDiffFrom cb n dst src dc flags w = (.ok d, w1)) : d.cls = dc := by
  rw [oDiffFrom_eq] at h
  cases hl : oLoops cb ⟨src, dst, flags⟩ n (startDiff dst src w) with
  | mk r w1 =>
    cases r with
    | error e => rw [M.bind_err hl] at h; cases h
    | ok kids => rw [M.bind_ok hl] at h; cases h; rfl

theorem getChildren_of_len {d : Diff V} (h : d.len = 0) : getChildren d.cls d.kids = [] := by
  unfold Diff.len at h
  cases hk : getChildren d.cls d.kids with
  | nil => rfl
  | cons e es =>
    rw [hk] at h
    have : 0 < e.len d.cls := by
      rw [Elem.len_eq]
      omega
    simp only [List.map_cons, List.sum_cons] at h
    omega

/-- **C81** What `sync_from(source, callback=cb)` without `diff` argument is: the diff is computed with the callback; if that raises, the sync raises the
same and nothing more happens; if the diff is empty it is returned, and only the counters of the syncer are reset; otherwise the rest is exactly
`sync_from(source, diff=d, callback=cb)` from there, of which the claims about syncs with arbitrary user code speak. -/
theorem C81_sync (n rl : Nat) (hooks : OpenHooks V E) (dst src : Adapter V) (dc : DiffClass V) (hdc : dc.id ∈ dc.bases) (flags : Nat) (w : World V E) :
    (∀ e w1, oDiffFrom hooks.callback n dst src dc flags w = (.error e, w1) → cSyncFrom n rl hooks dst src dc flags none w = (.error e, w1)) ∧
    (∀ d w1, oDiffFrom hooks.callback n dst src dc flags w = (.ok d, w1) →
      (d.len ≠ 0 → cSyncFrom n rl hooks dst src dc flags none w = oSyncFrom n rl hooks dst src dc flags (some d) w1) ∧
      (d.len = 0 → cSyncFrom n rl hooks dst src dc flags none w =
        (.ok d, { w1 with sproc := 0, stotal := 0, sact := none, scls := none, slog := ⟨none, "", ""⟩ }))) := by
  have h0 : cSyncFrom n rl hooks dst src dc flags none w = (oDiffFrom hooks.callback n dst src dc flags >>= fun d =>
      cApply n rl hooks dst src flags d) w := by
    unfold cSyncFrom
    rw [M.bind_ok (show checkDiffClass dc none w = ((.ok () : Except Err Unit), w) from rfl)]
    rfl
  constructor
  · intro e w1 h
    rw [h0, M.bind_err h]
  · intro d w1 h
    rw [h0, M.bind_ok h]
    have hcls := oDiffFrom_cls h
    constructor
    · intro hl
      have ht : d.truthy = true := by unfold Diff.truthy; simpa using hl
      have hck : checkDiffClass dc (some d) w1 = ((.ok () : Except Err Unit), w1) := by
        unfold checkDiffClass
        dsimp only
        rw [if_neg]
        · rfl
        · rw [ht, hcls]
          simpa using hdc
      have hch : chooseDiff n dst src dc flags (some d) w1 = ((.ok d : Except Err (Diff V)), w1) := by
        unfold chooseDiff
        dsimp only
        rw [if_pos ht]
        rfl
      unfold oSyncFrom
      rw [M.bind_ok hck, M.bind_ok hch]
      rfl
    · intro hl
      unfold cApply oPerformSync
      rw [getChildren_of_len hl, hl]
      rfl

/-- **C81** If a call of the callback raises while `sync_from` computes the diff, no CRUD method has been called; and with a callback that only looks,
nothing that was stored has changed. -/
theorem C81_sync_not_begun (n rl : Nat) (hooks : OpenHooks V E) (dst src : Adapter V) (dc : DiffClass V) (hdc : dc.id ∈ dc.bases) (flags : Nat)
    (w w1 : World V E) (h : w.OK) {e : Err} (hd : oDiffFrom hooks.callback n dst src dc flags w = (.error e, w1)) :
    (cSyncFrom n rl hooks dst src dc flags none w).1 = .error e ∧
    (∀ c o, Event.call c o ∈ (cSyncFrom n rl hooks dst src dc flags none w).2.trace → Event.call c o ∈ w.trace) ∧
    (OnlyLooks hooks.callback → ∀ A : Adapter V, snap A (cSyncFrom n rl hooks dst src dc flags none w).2 = snap A w) := by
  rw [(C81_sync n rl hooks dst src dc hdc flags w).1 e w1 hd]
  refine ⟨rfl, fun c o hc => ?_, fun hl A => ?_⟩
  · obtain ⟨cs, h1, _⟩ := C81_any_callback hooks.callback n src dst dc flags w
    rw [hd] at h1
    rw [show ((.error e, w1) : Except Err (Diff V) × World V E).2.trace = _ from h1] at hc
    rcases List.mem_append.1 hc with hc | hc
    · exact hc
    · obtain ⟨_, _, hc⟩ := List.mem_map.1 hc
      cases hc
  · have := (C81_looking_callback hl n src dst dc flags w h).1 A
    rw [hd] at this
    exact this

/-- **C81** With a callback that only looks while the diff is computed and does not raise, the diff that `sync_from` applies is the one `diff_from` gives. -/
theorem C81_sync_quiet (n rl : Nat) (hooks : OpenHooks V E) (dst src : Adapter V) (dc : DiffClass V) (hdc : dc.id ∈ dc.bases) (flags : Nat)
    (w : World V E) (h : w.OK) (hl : OnlyLooks hooks.callback) (hq : ∀ c t w, (hooks.callback c t w).1 = .ok ()) {d : Diff V}
    (hd : (diffFrom n dst src dc flags w).1 = .ok d) (hne : d.len ≠ 0) :
    ∃ w1, (∀ A : Adapter V, snap A w1 = snap A w) ∧ (∀ r, r < w.next → w1.heap r = w.heap r) ∧ w1.redis = w.redis ∧
      w1.trace = (diffFrom n dst src dc flags w).2.trace ∧
      cSyncFrom n rl hooks dst src dc flags none w = oSyncFrom n rl hooks dst src dc flags (some d) w1 := by
  obtain ⟨h1, h2⟩ := C81_quiet_callback hl hq n src dst dc flags w h
  obtain ⟨k1, k2, _, k4, _⟩ := C81_looking_callback hl n src dst dc flags w h
  have hd' : oDiffFrom hooks.callback n dst src dc flags w = (.ok d, (oDiffFrom hooks.callback n dst src dc flags w).2) :=
    Prod.ext (h1.trans hd) rfl
  exact ⟨_, k1, k2, k4, h2, ((C81_sync n rl hooks dst src dc hdc flags w).2 d _ hd').1 hne⟩

end DS
