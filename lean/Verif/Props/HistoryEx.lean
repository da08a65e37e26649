import Verif.Props.HistoryConv
import Verif.Props.ConvergeEx
/-! # A concrete history, and one after which a sync converges -/
set_option linter.unusedSectionVars false

namespace DS.Ex
variable {D : Prop}

/-- Every store holds sites, devices and interfaces. -/
def famF : Decls String := fun _ => (ad 0).classes

theorem ad_family (k : Nat) : Family famF (ad k) where
  classes := rfl
  valid := ad_valid k
  top := by show ∀ t ∈ (ad 0).topLevel, t ∈ Dict.keys (ad 0).classes; decide
  plain _ h := by cases h
  kids_plain _ h := by cases h

theorem adR_family (k : Nat) {sid : String} (hs : Plain sid) : Family famF (adR k sid) where
  classes := rfl
  valid := ⟨(ad_valid k).names, (ad_valid k).valid, (ad_valid k).fields⟩
  top := by show ∀ t ∈ (ad 0).topLevel, t ∈ Dict.keys (ad 0).classes; decide
  plain s h := by
    cases h
    exact ⟨hs, by show ∀ t ∈ Dict.keys (ad 0).classes, Plain t; decide⟩
  kids_plain s h t c hc := by
    have := Dict.mem_of_get? hc
    simp only [adR, ad, List.mem_cons, List.not_mem_nil, or_false, Prod.mk.injEq] at this
    rcases this with ⟨rfl, rfl⟩ | ⟨rfl, rfl⟩ | ⟨rfl, rfl⟩ <;> decide

theorem reachable_addModels {A : Adapter String} (hA : Family famF A) (ms : List (Model String))
    (h : ∀ m ∈ ms, m.cls.instantiate m.vals m.kids (some m.flags) = .ok m ∧ Dict.get? (ad 0).classes m.type = some m.cls ∧ ∀ p ∈ m.kids, p.2.Nodup)
    {w : World String (List Outcome)} (hw : Reachable famF D w) : Reachable famF D (addModels A ms w) := by
  unfold addModels
  induction ms generalizing w with
  | nil => exact hw
  | cons m ms ih =>
    obtain ⟨h1, h2, h3⟩ := h m (by simp)
    have r1 : Reachable famF D (alloc { m := m } w).2 := .step hw ⟨A.ref.store, .new ((ad_valid 0).valid _ _ h2) h3 h1⟩
    have hh : ((alloc { m := m } w).2.heap w.next).m = m := by
      show (if w.next = w.next then ({ m := m } : Obj String) else w.heap w.next).m = m
      rw [if_pos rfl]
    have r2 : Reachable famF D (add A w.next (alloc { m := m } w).2).2 :=
      .step r1 ⟨_, .add hA ⟨Nat.lt_succ_self _, by rw [hh, hA.classes]; exact h2⟩ (fun _ _ a ha => by
        have : ((alloc { m := m } w).2.heap w.next).adapter = none := by
          show (if w.next = w.next then ({ m := m } : Obj String) else w.heap w.next).adapter = none
          rw [if_pos rfl]
        rw [this] at ha; cases ha)⟩
    show Reachable famF D (((do let r ← alloc { m := m }; add A r : M String (List Outcome) Unit) >>= fun _ => M.forEach (fun m => do let r ← alloc { m := m }; add A r) ms) w).2
    cases he : (do let r ← alloc { m := m }; add A r : M String (List Outcome) Unit) w with
    | mk res w1 =>
      have e1 : w1 = (add A w.next (alloc { m := m } w).2).2 := by
        have := congrArg Prod.snd he
        rw [alloc_bind] at this
        exact this.symm
      rw [← e1] at r2
      cases res with
      | error e => rw [M.bind_err he]; exact r2
      | ok a => rw [M.bind_ok he]; exact ih (fun m' hm' => h m' (by simp [hm'])) r2

theorem reachable_world0 : Reachable famF D (world0 String (List Outcome) []) := .start ⟨rfl, fun _ => rfl, Dict.wf_nil, fun k h => by cases h⟩

/-- A site in Redis, an older copy of it in a local store. -/
def wH0 : World String (List Outcome) :=
  addModels (adR 1 "one") [site "nyc" ["a", "b"], device "a" "leaf" ["a__eth0"], interface "a" "eth0" "up", device "b" "spine" []]
  (addModels (ad 2) [site "nyc" ["a", "c"], device "a" "core" [], device "c" "leaf" []] (world0 String _ []))
/-- User code will fail once. -/
def wHe : World String (List Outcome) := { wH0 with env := [{}, { applied := false, result := .raises .objectNotUpdated }] }
/-- A sync that goes on after the failure. -/
def wH1 : World String (List Outcome) := (syncFrom 20 20 (scripted String) (ad 2) (adR 1 "one") (DiffClass.default _) GF.CONTINUE_ON_FAILURE none wHe).2
/-- The other way round, into Redis. -/
def wH2 : World String (List Outcome) := (syncFrom 20 20 (scripted String) (adR 1 "one") (ad 2) (DiffClass.default _) 0 none wH1).2
/-- The site and all it holds are removed from the Redis store. -/
def wH3 : World String (List Outcome) := (remove (adR 1 "one") 20 0 true wH2).2

theorem wH0_reachable : Reachable famF D wH0 :=
  reachable_addModels (adR_family 1 (by decide)) _ (by decide +kernel) (reachable_addModels (ad_family 2) _ (by decide +kernel) reachable_world0)
theorem wHe_reachable : Reachable famF D wHe := .step wH0_reachable ⟨.local 0, .user _⟩
theorem wH1_reachable : Reachable famF D wH1 := by
  have h := StepOn.sync (D := D) (w := wHe) (n := 20) (rl := 20) (hooks := scripted String) (dc := DiffClass.default _) (flags := GF.CONTINUE_ON_FAILURE) (diff := none)
    (ad_family 2) (adR_family 1 (sid := "one") (by decide)) (fun _ h => by cases h)
  rw [wH1]
  exact .step wHe_reachable ⟨_, h⟩
theorem wH2_reachable : Reachable famF D wH2 := by
  have h := StepOn.sync (D := D) (w := wH1) (n := 20) (rl := 20) (hooks := scripted String) (dc := DiffClass.default _) (flags := 0) (diff := none)
    (adR_family 1 (sid := "one") (by decide)) (ad_family 2) (fun _ h => by cases h)
  rw [wH2]
  exact .step wH1_reachable ⟨_, h⟩
theorem wH3_reachable : Reachable famF False wH3 := by
  have hn : 0 < wH2.next := Nat.pos_of_ne_zero (by decide +kernel)
  have h := StepOn.remove (D := False) (w := wH2) (n := 20) (r := 0) (b := true) (adR_family 1 (sid := "one") (by decide)) hn (False.elim)
  rw [wH3]
  exact .step wH2_reachable ⟨_, h⟩

/-- What the adapters hold on the way. -/
def keysH : List (String × String) := [("site", "nyc"), ("device", "a"), ("device", "b"), ("device", "c"), ("interface", "a__eth0")]
example : contents (ad 2) keysH wH1 = [some (site "nyc" ["a", "b"]), some (device "a" "leaf" []), some (device "b" "spine" []), none, none] := by decide +kernel
example : contents (adR 1 "one") keysH wH2 = [some (site "nyc" ["a", "b"]), some (device "a" "leaf" ["a__eth0"]), some (device "b" "spine" []), none, none] := by
  decide +kernel
example : contents (adR 1 "one") keysH wH3 = [none, none, none, none, none] := by decide +kernel

theorem wH2_device : ((snap (adR 1 "one") wH2).find "device" "a") = some (device "a" "leaf" ["a__eth0"]) := by decide +kernel
example : WellFormed (adR 1 "one") "device" "a" (device "a" "leaf" ["a__eth0"]) :=
  C57_stored_objects_well_formed (D := True) wH2_reachable (adR_family 1 (by decide)) wH2_device
example := C57_get_all_agrees_with_get wH3_reachable (ad_family 2) (t := "device") (by decide)
example := C57_get_all_agrees_with_get (D := True) wH2_reachable (adR_family 1 (sid := "one") (by decide)) (t := "device") (by decide)

/-- A step of the history, as a further one. -/
theorem leads_wH1 : Leads famF D wHe wH1 := by
  have h := StepOn.sync (D := D) (w := wHe) (n := 20) (rl := 20) (hooks := scripted String) (dc := DiffClass.default _) (flags := GF.CONTINUE_ON_FAILURE) (diff := none)
    (ad_family 2) (adR_family 1 (sid := "one") (by decide)) (fun _ h => by cases h)
  rw [wH1]
  exact .step .refl ⟨_, h⟩
example := C57_identities_last (D := True) wHe_reachable leads_wH1 (r := 2) (by decide +kernel)
/-- The values of that object do change. -/
example : (wHe.heap 1).m = device "a" "core" [] ∧ (wH1.heap 1).m = device "a" "leaf" [] := by decide +kernel

theorem fields_famF {A B : Adapter String} (hA : A.classes = (ad 0).classes) (hB : B.classes = (ad 0).classes) : FieldsAgree A B := by
  intro t a b ha hb ct f f' h1 h2
  rw [hA] at ha
  rw [hB, ha] at hb
  cases hb
  exact Option.some.inj (h1.symm.trans h2)
example : Comparable (adR 1 "one") (ad 2) wH2 := C57_fit_for_diffs (D := True) wH2_reachable (adR_family 1 (by decide)) (ad_family 2) (fields_famF rfl rfl) (by decide)
example : DstReady (ad 2) wH3 := C57_fit_for_syncs wH3_reachable (ad_family 2)
example : DstReady (adR 1 "one") wH2 := C57_fit_for_syncs (D := True) wH2_reachable (adR_family 1 (by decide))
example : RedisStoreOK "one" wH2 := C57_fit_for_redis (D := True) wH2_reachable (adR_family 1 (by decide)) rfl

end DS.Ex

namespace DS.Ex
variable {D : Prop}

theorem sameModels_ad (j k : Nat) : SameModels (ad j) (ad k) where
  same := rfl
  required t c h := by
    have := Dict.mem_of_get? h
    simp only [ad, List.mem_cons, List.not_mem_nil, or_false, Prod.mk.injEq] at this
    have all : ∀ x ∈ [deviceC, interfaceC, siteC], ∀ p ∈ x.fields, p.2 = none → p.1 ∈ x.identifiers ∨ p.1 ∈ x.attributes := by decide
    intro f hf
    rcases this with ⟨rfl, rfl⟩ | ⟨rfl, rfl⟩ | ⟨rfl, rfl⟩ <;> exact all _ (by simp) _ hf rfl
  short t c h := by
    have := Dict.mem_of_get? h
    simp only [ad, List.mem_cons, List.not_mem_nil, or_false, Prod.mk.injEq] at this
    rcases this with ⟨rfl, rfl⟩ | ⟨rfl, rfl⟩ | ⟨rfl, rfl⟩ <;> decide
  children t c ct h := by
    have := Dict.mem_of_get? h
    simp only [ad, List.mem_cons, List.not_mem_nil, or_false, Prod.mk.injEq] at this
    have all : ∀ x ∈ [deviceC, interfaceC, siteC], ∀ ct ∈ Dict.keys x.children, ct ∈ Dict.keys (ad 0).classes := by decide
    rcases this with ⟨rfl, rfl⟩ | ⟨rfl, rfl⟩ | ⟨rfl, rfl⟩ <;> exact all _ (by simp) ct

theorem alike_of {w : World String (List Outcome)} (h : ReconB 1 2 w)
    (hty : ∀ x ∈ objs 1 w, x.2.cls.types = []) (hi : ∀ x ∈ objs 1 w, ∀ y ∈ objs 2 w, x.1 = y.1 → ∀ f ∈ x.2.cls.identifiers, Dict.get? x.2.vals f = Dict.get? y.2.vals f) :
    Alike (ad 1) (ad 2) 10 (snap (ad 1) w) (snap (ad 2) w) := by
  have r := h.reconcilable
  exact ⟨r.one_parent, r.not_top, r.depth, r.src_stored, r.dst_stored, r.src_place, r.dst_place,
    fun k s d hs hd => hi _ (mem_objs hs) _ (mem_objs hd) rfl, r.names, fun _ _ _ v _ _ _ => by simp [PyVal.eq],
    fun k s f v hs _ _ => parse_untyped (hty _ (mem_objs hs)) f v⟩

theorem w1_reachable : Reachable famF D (withEnv w1 []) :=
  .step (reachable_addModels (ad_family 1) _ (by decide +kernel) (reachable_addModels (ad_family 2) _ (by decide +kernel) reachable_world0)) ⟨.local 0, .user []⟩
theorem alike1 : Alike (ad 1) (ad 2) 10 (snap (ad 1) (withEnv w1 [])) (snap (ad 2) (withEnv w1 [])) := alike_of (recon1.withEnv []) (by decide +kernel) (by decide +kernel)
/-- The hypotheses are met: three levels, with objects to create, update and delete. -/
example := C21_after_any_history (D := True) w1_reachable (ad_family 1) (ad_family 2) (sid := 2) rfl (by decide) (sameModels_ad 1 2) (can1 []).separate alike1 (by decide)
  reorders_default (sync_pair (withEnv w1 []) 0) all1

end DS.Ex
