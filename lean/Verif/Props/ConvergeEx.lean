import Verif.Props.Converge
import Verif.Props.SyncEx
/-! # Concrete adapters that can be reconciled -/
set_option linter.unusedSectionVars false

namespace DS.Ex

/-- The objects of a local store. -/
def objs (s : Nat) (w : World String (List Outcome)) : List (Key × Model String) :=
  (w.loc s).flatMap (fun x => x.2.map (fun y => ((x.1, y.1), (w.heap y.2).m)))

/-- Their child lists, as pairs of keys. -/
def links (s : Nat) (w : World String (List Outcome)) : List (Key × Key) :=
  (objs s w).flatMap (fun x => x.2.cls.children.flatMap (fun y => ((x.2.kidList y.2).getD []).map (fun u => (x.1, (y.1, u)))))

theorem mem_objs {s : Nat} {w : World String (List Outcome)} {k : Key} {m : Model String} (h : (snap (ad s) w).find k.1 k.2 = some m) : (k, m) ∈ objs s w := by
  simp only [snap, ad] at h
  obtain ⟨r, hf, rfl⟩ := Option.map_eq_some_iff.1 h
  have := Dict.mem_of_get? hf
  unfold tbl at this
  cases ht : Dict.get? (w.loc s) k.1 with
  | none => rw [ht] at this; cases this
  | some tbl =>
    rw [ht] at this
    exact List.mem_flatMap.2 ⟨(k.1, tbl), Dict.mem_of_get? ht, List.mem_map.2 ⟨(k.2, r), this, rfl⟩⟩

theorem mem_links {s : Nat} {w : World String (List Outcome)} {k c : Key} (h : listsO ((snap (ad s) w).find k.1 k.2) c.1 c.2 = true) : (k, c) ∈ links s w := by
  unfold listsO at h
  split at h
  · cases h
  · rename_i m hm
    unfold Model.lists at h
    split at h
    · cases h
    · rename_i f hf
      split at h
      · cases h
      · rename_i l hl
        refine List.mem_flatMap.2 ⟨(k, m), mem_objs hm, List.mem_flatMap.2 ⟨(c.1, f), Dict.mem_of_get? hf, List.mem_map.2 ⟨c.2, ?_, rfl⟩⟩⟩
        show c.2 ∈ (m.kidList f).getD []
        rw [hl]
        exact List.contains_iff_mem.1 h

/-- `Fits`, computed. -/
def fitsB (s d : Model String) : Bool :=
  Dict.pyEq s.identifiers d.identifiers && decide (d.cls.shortname = s.cls.shortname) && s.cls.shortname.all (fun f => decide (s.strField f = d.strField f))
theorem fitsB_iff {s d : Model String} (h : fitsB s d = true) : Fits s d := by
  unfold fitsB at h
  rw [Bool.and_eq_true, Bool.and_eq_true, decide_eq_true_eq] at h
  exact ⟨h.1.1, h.1.2, fun f hf => of_decide_eq_true (List.all_eq_true.1 h.2 f hf)⟩

/-- `SourceFit`, computed. -/
def sourceB (c : ModelClass String) (s : Model String) : Bool :=
  decide (c.identifiers = s.cls.identifiers) && s.cls.children.all (fun x => decide (Dict.get? c.children x.1 = some x.2)) &&
    c.identifiers.all (fun f => decide (∀ v ∈ Dict.get? s.identifiers f, ∀ v' ∈ c.reads f v, v' = v)) &&
    (match c.construct s.identifiers s.attrs with | .ok m => fitsB s m | .error _ => false)
theorem sourceB_iff {c : ModelClass String} {s : Model String} (h : sourceB c s = true) : SourceFit c s := by
  unfold sourceB at h
  rw [Bool.and_eq_true, Bool.and_eq_true, Bool.and_eq_true, decide_eq_true_eq] at h
  refine ⟨h.1.1.1, fun ct f hf => of_decide_eq_true (List.all_eq_true.1 h.1.1.2 (ct, f) (Dict.mem_of_get? hf)),
    fun f hf v v' h1 h2 => of_decide_eq_true (List.all_eq_true.1 h.1.2 f hf) v h1 v' h2, ?_⟩
  cases hc : c.construct s.identifiers s.attrs with
  | error x => rw [hc] at h; cases h.2
  | ok m => rw [hc] at h; exact ⟨m, rfl, fitsB_iff h.2⟩

/-- `Sound`, computed, for instances of the example classes. -/
def soundB (m : Model String) : Bool :=
  decide (Dict.get? (ad 0).classes m.cls.name = some m.cls) && decide (Dict.keys m.vals = m.cls.fieldNames) &&
    m.cls.children.all (fun x => match m.kidList x.2 with | some l => decide l.Nodup | none => false)
theorem soundB_iff {m : Model String} (h : soundB m = true) : Sound m := by
  unfold soundB at h
  rw [Bool.and_eq_true, Bool.and_eq_true, decide_eq_true_eq, decide_eq_true_eq] at h
  refine ⟨(ad_valid 0).valid _ _ h.1.1, h.1.2, fun ct f hf => ?_⟩
  have := List.all_eq_true.1 h.2 (ct, f) (Dict.mem_of_get? hf)
  dsimp only at this
  cases hl : m.kidList f with
  | none => rw [hl] at this; cases this
  | some l => rw [hl] at this; exact ⟨l, rfl, of_decide_eq_true this⟩

/-- `Reconcilable`, computed, for the example adapters. -/
structure ReconB (i j : Nat) (w : World String (List Outcome)) : Prop where
  types : ∀ x ∈ links i w ++ links j w, (x.1.1, x.2.1) = ("site", "device") ∨ (x.1.1, x.2.1) = ("device", "interface")
  one_parent : ∀ x ∈ links i w ++ links j w, ∀ y ∈ links i w ++ links j w, x.2 = y.2 → x.1 = y.1
  src_stored : ∀ x ∈ links i w, (snap (ad i) w).find x.2.1 x.2.2 ≠ none
  dst_stored : ∀ x ∈ links j w, (snap (ad j) w).find x.2.1 x.2.2 ≠ none
  src_place : ∀ x ∈ links i w, (snap (ad j) w).find x.2.1 x.2.2 ≠ none → listsO ((snap (ad j) w).find x.1.1 x.1.2) x.2.1 x.2.2 = true
  dst_place : ∀ x ∈ links j w, (snap (ad i) w).find x.2.1 x.2.2 ≠ none → listsO ((snap (ad i) w).find x.1.1 x.1.2) x.2.1 x.2.2 = true
  sound : ∀ x ∈ objs i w ++ objs j w, soundB x.2 = true
  source : ∀ x ∈ objs i w, ∀ c ∈ (ad 0).classes, c.1 = x.1.1 → sourceB c.2 x.2 = true
  pairs : ∀ x ∈ objs i w, ∀ y ∈ objs j w, x.1 = y.1 → fitsB x.2 y.2 = true
  names : ∀ x ∈ objs i w ++ objs j w, ∀ y ∈ objs i w ++ objs j w, x.1.1 = y.1.1 → x.1 ≠ y.1 → x.1.1 ≠ "interface" → x.2.shortname ≠ y.2.shortname
  names_if : ∀ x ∈ objs i w ++ objs j w, ∀ y ∈ objs i w ++ objs j w, x.1.1 = "interface" → y.1.1 = "interface" → x.1 ≠ y.1 →
    (∃ p ∈ links i w ++ links j w, ∃ q ∈ links i w ++ links j w, p.2 = x.1 ∧ q.2 = y.1 ∧ p.1 = q.1) → x.2.shortname ≠ y.2.shortname

theorem mem_links' {i j : Nat} {w : World String (List Outcome)} {k c : Key} (h : Linked (snap (ad i) w) (snap (ad j) w) k c) : (k, c) ∈ links i w ++ links j w := by
  rcases h with h | h
  · exact List.mem_append_left _ (mem_links h)
  · exact List.mem_append_right _ (mem_links h)
theorem mem_objs' {i j : Nat} {w : World String (List Outcome)} {k : Key} {m : Model String} (h : (snap (ad i) w).find k.1 k.2 = some m ∨ (snap (ad j) w).find k.1 k.2 = some m) :
    (k, m) ∈ objs i w ++ objs j w := by
  rcases h with h | h
  · exact List.mem_append_left _ (mem_objs h)
  · exact List.mem_append_right _ (mem_objs h)

theorem ReconB.reconcilable {i j : Nat} {w : World String (List Outcome)} (h : ReconB i j w) : Reconcilable (ad i) (ad j) 10 (snap (ad i) w) (snap (ad j) w) where
  one_parent k k' c h1 h2 := h.one_parent _ (mem_links' h1) _ (mem_links' h2) rfl
  not_top k c h1 := by
    rintro ⟨h2, _⟩
    have h2 : c.1 = "site" := by simpa [ad] using h2
    rcases h.types _ (mem_links' h1) with h3 | h3 <;> (simp only [Prod.mk.injEq] at h3; rw [h2] at h3; exact absurd h3.2 (by decide))
  depth n k hn := by
    have : ∀ n k, FromTop (ad i) (ad j) (snap (ad i) w) (snap (ad j) w) n k → (n = 0 ∧ k.1 = "site") ∨ (n = 1 ∧ k.1 = "device") ∨ (n = 2 ∧ k.1 = "interface") := by
      intro n k hn
      induction hn with
      | top h1 _ => exact .inl ⟨rfl, by simpa [ad] using h1⟩
      | down _ hl ih =>
        rcases h.types _ (mem_links' hl) with h3 | h3 <;> simp only [Prod.mk.injEq] at h3 <;>
          rcases ih with ⟨rfl, h4⟩ | ⟨rfl, h4⟩ | ⟨rfl, h4⟩ <;> first
            | (rw [h3.1] at h4; exact absurd h4 (by decide))
            | exact .inr (.inl ⟨rfl, h3.2⟩)
            | exact .inr (.inr ⟨rfl, h3.2⟩)
    rcases this n k hn with ⟨rfl, _⟩ | ⟨rfl, _⟩ | ⟨rfl, _⟩ <;> decide
  src_stored k c h1 := h.src_stored _ (mem_links h1)
  dst_stored k c h1 := h.dst_stored _ (mem_links h1)
  src_place k c h1 h2 := h.src_place _ (mem_links h1) h2
  dst_place k c h1 h2 := h.dst_place _ (mem_links h1) h2
  top_known := (by decide : ∀ t ∈ (ad 0).topLevel, (ad 0).classes.get? t ≠ none)
  kids_known t c ct hc hct := by
    have := Dict.mem_of_get? hc
    simp only [ad, List.mem_cons, List.not_mem_nil, or_false, Prod.mk.injEq] at this
    rcases this with ⟨rfl, rfl⟩ | ⟨rfl, rfl⟩ | ⟨rfl, rfl⟩
    · simp [deviceC, Dict.keys] at hct; subst hct; exact (by decide : (ad 0).classes.get? "interface" ≠ none)
    · simp [interfaceC, Dict.keys] at hct
    · simp [siteC, Dict.keys] at hct; subst hct; exact (by decide : (ad 0).classes.get? "device" ≠ none)
  sound k m hm := soundB_iff (h.sound _ (mem_objs' hm))
  source k s c hs hc := sourceB_iff (h.source _ (mem_objs hs) (k.1, c) (Dict.mem_of_get? hc) rfl)
  pairs k s d hs hd := fitsB_iff (h.pairs _ (mem_objs hs) _ (mem_objs hd) rfl)
  names k k' m m' hs hne hm hm' := by
    by_cases hi : k.1 = "interface"
    · refine h.names_if _ (mem_objs' hm) _ (mem_objs' hm') hi (hs.1.symm.trans hi) hne ?_
      rcases hs.2 with ⟨h1, _⟩ | ⟨p, h1, h2⟩
      · rw [hi] at h1; exact absurd h1 (by decide : ¬ "interface" ∈ (ad 0).topLevel)
      · exact ⟨_, mem_links' h1, _, mem_links' h2, rfl, rfl, rfl⟩
    · exact h.names _ (mem_objs' hm) _ (mem_objs' hm') hs.1 hne hi

theorem separate_of {i j : Nat} (hij : i ≠ j) {w : World String (List Outcome)} (h : ∀ r ∈ ((w.loc i).map (fun x => (x.2.map Prod.snd))).flatten,
    r ∉ ((w.loc j).map (fun x => (x.2.map Prod.snd))).flatten) : Separate (ad i) (ad j) w := by
  refine ⟨fun h => hij (by simpa [ad] using h), ?_⟩
  intro t u t' u' r h1 h2
  have hm : ∀ (s : Nat) (t u : String) (r : Ref), findRef w s t u = some r → r ∈ ((w.loc s).map (fun x => (x.2.map Prod.snd))).flatten := by
    intro s t u r h
    have := Dict.mem_of_get? h
    unfold tbl at this
    cases ht : Dict.get? (w.loc s) t with
    | none => rw [ht] at this; cases this
    | some tbl =>
      rw [ht] at this
      exact List.mem_flatten.2 ⟨tbl.map Prod.snd, List.mem_map.2 ⟨(t, tbl), Dict.mem_of_get? ht, rfl⟩, List.mem_map.2 ⟨(u, r), this, rfl⟩⟩
  exact h r (hm _ _ _ _ h1) (hm _ _ _ _ h2)

theorem canConverge_of {i j : Nat} (hij : i ≠ j) {w : World String (List Outcome)} (hw : w.OK)
    (h : ∀ r, r < w.next → Dict.get? (ad 0).classes (w.heap r).m.type = some (w.heap r).m.cls)
    (hs : ∀ r ∈ ((w.loc i).map (fun x => (x.2.map Prod.snd))).flatten, r ∉ ((w.loc j).map (fun x => (x.2.map Prod.snd))).flatten)
    (hr : ReconB i j w) : CanConverge 10 (ad i) (ad j) j w :=
  ⟨comparable_local hw rfl rfl
    (fun r hr => ((ad_valid 0).valid _ _ (h r hr)).children_nodup)
    (fun r hr r' hr' ht => by
      have h1 := h r hr; have h2 := h r' hr'
      rw [ht] at h1
      rw [Option.some.inj (h1.symm.trans h2)]) (by decide : (ad 0).topLevel.Nodup), ready_ad hw j h, separate_of hij hs, hr.reconcilable⟩

theorem ReconB.withEnv {i j : Nat} {w : World String (List Outcome)} (h : ReconB i j w) (os : List Outcome) : ReconB i j (withEnv w os) :=
  ⟨h.1, h.2, h.3, h.4, h.5, h.6, h.7, h.8, h.9, h.10, h.11⟩
theorem recon1 : ReconB 1 2 w1 := by constructor <;> decide +kernel

theorem canConverge_env {w : World String (List Outcome)} (os : List Outcome) (hw : w.OK)
    (h : ∀ r, r < w.next → Dict.get? (ad 0).classes (w.heap r).m.type = some (w.heap r).m.cls)
    (hs : ∀ r ∈ ((w.loc 1).map (fun x => (x.2.map Prod.snd))).flatten, r ∉ ((w.loc 2).map (fun x => (x.2.map Prod.snd))).flatten)
    (hr : ReconB 1 2 w) : CanConverge 10 (ad 1) (ad 2) 2 (Ex.withEnv w os) :=
  canConverge_of (by decide) (withEnv_ok hw os) (withEnv_cls os h) hs (hr.withEnv os)

/-- The adapters of `w1` (three levels, with objects to create, update and delete) can be reconciled, whatever the user's code will do. -/
theorem can1 (os : List Outcome) : CanConverge 10 (ad 1) (ad 2) 2 (withEnv w1 os) :=
  canConverge_env os w1_ok w1_cls (by decide +kernel) recon1

theorem keep_ad (k : Nat) (S : Snap String) : KeepsValuesOf (ad k) S := fun _ s c _ hc f v v' _ h => by
  rw [parse_untyped (ad_untyped hc)] at h
  cases h
  simp [PyVal.eq]
theorem self1 (S : Snap String) : SelfEqual S := fun _ _ _ v _ _ => by simp [PyVal.eq]
theorem reorders_default : (DiffClass.default String).Reorders := fun _ _ => List.Perm.refl _

/-- Whether all calls succeeded, computed. -/
theorem allSucceed_of {evs : List (Event String)} (h : evs.all (fun ev => match ev with
    | .call c out => decide (out.result = .object) && (decide (c.act ≠ .update) || out.applied)
    | _ => true) = true) : AllSucceed evs := by
  intro c out hm
  have := List.all_eq_true.1 h _ hm
  dsimp only at this
  rw [Bool.and_eq_true, Bool.or_eq_true, decide_eq_true_eq, decide_eq_true_eq] at this
  exact ⟨this.1, fun hu => this.2.resolve_left (fun hn => hn hu)⟩

theorem sync_pair (w : World String (List Outcome)) (flags : Nat) :
    syncFrom 10 20 (scripted String) (ad 2) (ad 1) (DiffClass.default _) flags none w = ((sync w flags).1, (sync w flags).2) := rfl
theorem syncs2 (w : World String (List Outcome)) (f1 f2 : Nat) : Syncs 10 20 (ad 1) (ad 2) w (sync (sync w f1).2 f2).2 :=
  .sync (.sync .nil (sync_pair w f1)) (sync_pair _ f2)

/-- C21: all eight calls of the sync of `w1` succeed; the theorem applies. -/
theorem all1 : AllSucceed (newEvents (withEnv w1 []) (sync (withEnv w1 []) 0).2) := allSucceed_of (by decide +kernel)
example := C21_sync_converges (can1 []) (self1 _) (keep_ad 2 _).new reorders_default (by decide) (sync_pair (withEnv w1 []) 0) all1
example : (calls (newEvents w1 (sync w1 0).2)).length = 8 ∧ (dOf w1 0).hasDiffs = true ∧ (dOf (sync w1 0).2 0).hasDiffs = false := by decide +kernel
example := C21_sync_to_converges (can1 []) (self1 _) (keep_ad 2 _).new reorders_default (by decide) (show syncTo 10 20 (scripted String) (ad 1) (ad 2) (DiffClass.default _) 0 none (withEnv w1 []) = _ from sync_pair (withEnv w1 []) 0) all1
/-- C22: the second sync, in the world that the first one leaves. -/
example := C22_second_sync_idle (can1 []) (self1 _) (keep_ad 2 _).new reorders_default (by decide) (sync_pair (withEnv w1 []) 0) all1
  (by decide) reorders_default (sync_pair (sync (withEnv w1 []) 0).2 0)
example : callsOf (newEvents (sync w1 0).2 (sync (sync w1 0).2 0).2) = [] ∧ progressOf (newEvents (sync w1 0).2 (sync (sync w1 0).2 0).2) = countUp 5 0 5 := by decide +kernel
/-- C31: a sync that is aborted by an exception, one in which calls fail but which goes on, then one that succeeds. -/
def os3 : List Outcome := [{ result := .none }, {}, { result := .raises .objectNotDeleted, applied := false },
  { result := .none, applied := false }, { result := .raises .objectNotCreated, applied := false }]
def wA := (sync (withEnv w1 os3) 0).2
def wB := (sync wA GF.CONTINUE_ON_FAILURE).2
example : errOf (sync (withEnv w1 os3) 0) = some .objectNotDeleted ∧ errOf (sync wA GF.CONTINUE_ON_FAILURE) = none ∧
    (calls (newEvents wA wB)).length = 6 ∧ (calls (newEvents wB (sync wB 0).2)).length = 2 ∧
    (dOf wB 0).hasDiffs = true ∧ (dOf (sync wB 0).2 0).hasDiffs = false := by decide +kernel
theorem allB : AllSucceed (newEvents (sync (sync (withEnv w1 os3) 0).2 GF.CONTINUE_ON_FAILURE).2 (sync (sync (sync (withEnv w1 os3) 0).2 GF.CONTINUE_ON_FAILURE).2 0).2) :=
  allSucceed_of (by decide +kernel)
example := C31_failures_do_not_matter (can1 os3) (self1 _) (keep_ad 2 _) (by decide) (syncs2 _ 0 GF.CONTINUE_ON_FAILURE) reorders_default (sync_pair _ 0) allB

end DS.Ex
