import Verif.Props.Parse
import Verif.Props.ConvergeEx
/-! # Concrete classes that alter values -/
set_option linter.unusedSectionVars false

namespace DS.Ex

/-- A VLAN whose number is kept as given. -/
def vlanS : ModelClass String where
  name := "vlan"
  fields := [("name", none), ("number", none), ("note", some "-")]
  identifiers := ["name"]
  attributes := ["number", "note"]
/-- A VLAN whose number is annotated `int`. -/
def vlanD : ModelClass String := { vlanS with types := [("number", "int")] }
/-- A port, identified by a number, kept as given or annotated `int`. -/
def portS : ModelClass String where
  name := "port"
  fields := [("number", none)]
  identifiers := ["number"]
def portD : ModelClass String := { portS with types := [("number", "int")] }

/-- An adapter with one class, which is at the top. -/
def flat (k : Nat) (c : ModelClass String) : Adapter String where
  ref := ⟨k, .local k⟩
  name := "flat"
  topLevel := [c.name]
  classes := [(c.name, c)]

def vlan (c : ModelClass String) (name number : String) : Model String := ⟨c, [("name", name), ("number", number), ("note", "-")], [], 0⟩

/-- Source: VLANs a to d; destination: b with a raw number that differs, c as in the source, e. -/
def wV : World String (List Outcome) :=
  addModels (flat 1 vlanS) [vlan vlanS "a" "007", vlan vlanS "b" "010", vlan vlanS "c" "3", vlan vlanS "d" "4"]
  (addModels (flat 2 vlanD) [vlan vlanD "b" "11", vlan vlanD "c" "3", vlan vlanD "e" "5"] (world0 String _ []))

def syncV (w : World String (List Outcome)) := syncFrom 10 20 (scripted String) (flat 2 vlanD) (flat 1 vlanS) (DiffClass.default _) 0 none w
theorem syncV_pair (w : World String (List Outcome)) :
    syncFrom 10 20 (scripted String) (flat 2 vlanD) (flat 1 vlanS) (DiffClass.default _) 0 none w = ((syncV w).1, (syncV w).2) := rfl
def wV1 := (syncV wV).2
def wV2 := (syncV wV1).2
def diffsV (w : World String (List Outcome)) : Option Bool :=
  match (diffFrom 10 (flat 2 vlanD) (flat 1 vlanS) (DiffClass.default _) 0 w).1 with | .ok d => some d.hasDiffs | .error _ => none

theorem wV_ok : wV.OK := addModels_ok _ _ _ (addModels_ok _ _ _ (world0_ok _))

theorem flat_valid : (flat 2 vlanD).Valid where
  names t c h := by
    have := Dict.mem_of_get? h
    simp only [flat, List.mem_cons, List.not_mem_nil, or_false, Prod.mk.injEq] at this
    obtain ⟨rfl, rfl⟩ := this; rfl
  valid t c h := by
    have := Dict.mem_of_get? h
    simp only [flat, List.mem_cons, List.not_mem_nil, or_false, Prod.mk.injEq] at this
    obtain ⟨rfl, rfl⟩ := this; constructor <;> decide
  fields t c h := by
    have := Dict.mem_of_get? h
    simp only [flat, List.mem_cons, List.not_mem_nil, or_false, Prod.mk.injEq] at this
    obtain ⟨rfl, rfl⟩ := this; decide

theorem mem_objs_flat {k : Nat} {c : ModelClass String} {w : World String (List Outcome)} {x : Key} {m : Model String}
    (h : (snap (flat k c) w).find x.1 x.2 = some m) : (x, m) ∈ objs k w := mem_objs (s := k) h

theorem no_links {k : Nat} {c : ModelClass String} {w : World String (List Outcome)} (h : links k w = []) {x y : Key} :
    ¬ listsO ((snap (flat k c) w).find x.1 x.2) y.1 y.2 = true := by
  intro hl
  have := mem_links (s := k) hl
  rw [h] at this
  cases this

theorem links1 : links 1 wV = [] := by decide +kernel
theorem links2 : links 2 wV = [] := by decide +kernel

theorem no_linked {x y : Key} : ¬ Linked (snap (flat 1 vlanS) wV) (snap (flat 2 vlanD) wV) x y := by
  rintro (h | h)
  · exact no_links links1 h
  · exact no_links links2 h

theorem objs1 : ∀ x ∈ objs 1 wV, x.1.1 = "vlan" ∧ x.2.cls = vlanS ∧ Dict.keys x.2.vals = vlanS.fieldNames ∧ x.2.shortname = x.1.2 ∧ sourceB vlanD x.2 = true ∧
    ∀ y ∈ objs 2 wV, x.1 = y.1 → fitsB x.2 y.2 = true := by decide +kernel
theorem objs2 : ∀ x ∈ objs 2 wV, x.1.1 = "vlan" ∧ x.2.cls = vlanD ∧ Dict.keys x.2.vals = vlanD.fieldNames ∧ x.2.shortname = x.1.2 := by decide +kernel

theorem reconV : Reconcilable (flat 1 vlanS) (flat 2 vlanD) 10 (snap (flat 1 vlanS) wV) (snap (flat 2 vlanD) wV) where
  one_parent k k' c h _ := absurd h no_linked
  not_top k c h := absurd h no_linked
  depth j k h := by
    cases h with
    | top => decide
    | down _ h => exact absurd h no_linked
  src_stored k c h := absurd h (no_links links1)
  dst_stored k c h := absurd h (no_links links2)
  src_place k c h := absurd h (no_links links1)
  dst_place k c h := absurd h (no_links links2)
  top_known := (by decide : ∀ t ∈ (flat 2 vlanD).topLevel, Dict.get? (flat 2 vlanD).classes t ≠ none)
  kids_known t c ct hc hct := by
    have := Dict.mem_of_get? hc
    simp only [flat, List.mem_cons, List.not_mem_nil, or_false, Prod.mk.injEq] at this
    obtain ⟨rfl, rfl⟩ := this
    simp [vlanD, vlanS, Dict.keys] at hct
  sound k m hm := by
    have hv : ∀ c : ModelClass String, c.Valid → c.children = [] → m.cls = c → Dict.keys m.vals = c.fieldNames → Sound m := by
      intro c h1 h2 h3 h4
      subst h3
      exact ⟨h1, h4, fun ct f hf => by rw [h2] at hf; cases hf⟩
    rcases hm with hm | hm
    · obtain ⟨_, h2, h3, _⟩ := objs1 _ (mem_objs_flat hm)
      exact hv vlanS (by constructor <;> decide) rfl h2 h3
    · obtain ⟨_, h2, h3, _⟩ := objs2 _ (mem_objs_flat hm)
      exact hv vlanD (by constructor <;> decide) rfl h2 h3
  source k s c hs hc := by
    have := Dict.mem_of_get? hc
    simp only [flat, List.mem_cons, List.not_mem_nil, or_false, Prod.mk.injEq] at this
    obtain ⟨_, rfl⟩ := this
    exact sourceB_iff (objs1 _ (mem_objs_flat hs)).2.2.2.2.1
  pairs k s d hs hd := fitsB_iff ((objs1 _ (mem_objs_flat hs)).2.2.2.2.2 _ (mem_objs_flat hd) rfl)
  names k k' m m' hs hne hm hm' := by
    have f : ∀ (k : Key) m, (snap (flat 1 vlanS) wV).find k.1 k.2 = some m ∨ (snap (flat 2 vlanD) wV).find k.1 k.2 = some m →
        k.1 = "vlan" ∧ m.shortname = k.2 := by
      intro k m h
      rcases h with h | h
      · exact ⟨(objs1 _ (mem_objs_flat h)).1, (objs1 _ (mem_objs_flat h)).2.2.2.1⟩
      · exact ⟨(objs2 _ (mem_objs_flat h)).1, (objs2 _ (mem_objs_flat h)).2.2.2⟩
    obtain ⟨a1, a2⟩ := f k m hm
    obtain ⟨b1, b2⟩ := f k' m' hm'
    rw [a2, b2]
    exact fun h => hne (Prod.ext (a1.trans b1.symm) h)

theorem separate_flat {i j : Nat} {c c' : ModelClass String} {w : World String (List Outcome)} (h : Separate (ad i) (ad j) w) :
    Separate (flat i c) (flat j c') w := h
theorem mem_objs_flat' {k : Nat} {c : ModelClass String} {w : World String (List Outcome)} {t u : String} {m : Model String}
    (h : (snap (flat k c) w).find t u = some m) : ((t, u), m) ∈ objs k w := mem_objs_flat (x := (t, u)) h
theorem find_flat {k : Nat} {c : ModelClass String} {w : World String (List Outcome)} {t u : String} {r : Ref} (h : findRef w k t u = some r) :
    (snap (flat k c) w).find t u = some (w.heap r).m := by simp [snap, flat, h]

theorem heapV1 : ∀ r, r < wV.next → (Dict.keys (wV.heap r).m.cls.children).Nodup := by decide +kernel
theorem heapV2 : ∀ r, r < wV.next → ∀ r', r' < wV.next → (wV.heap r).m.type = (wV.heap r').m.type →
    (wV.heap r).m.cls.children = (wV.heap r').m.cls.children := by decide +kernel
theorem compV : Comparable (flat 1 vlanS) (flat 2 vlanD) wV := comparable_local wV_ok rfl rfl heapV1 heapV2 (by decide)
theorem instances_flat {k : Nat} {d : ModelClass String} {w : World String (List Outcome)} (h : ∀ x ∈ objs k w, x.2.cls = d) : Instances (flat k d) k w := by
  intro t u r c hf hc
  have := Dict.mem_of_get? hc
  simp only [flat, List.mem_cons, List.not_mem_nil, or_false, Prod.mk.injEq] at this
  rw [this.2]
  exact h _ (mem_objs_flat' (find_flat (c := d) hf))
theorem instV : Instances (flat 2 vlanD) 2 wV := instances_flat (fun x hx => (objs2 x hx).2.1)
theorem readyV : SyncReady (flat 2 vlanD) 2 wV := ⟨rfl, flat_valid, wV_ok, instV, fun t u m hm => by
  rw [(objs2 _ (mem_objs_flat' hm)).2.1]; exact List.nodup_nil⟩
theorem sepV : Separate (ad 1) (ad 2) wV := separate_of (by decide) (by decide +kernel)
theorem canV : CanConverge 10 (flat 1 vlanS) (flat 2 vlanD) 2 wV := ⟨compV, readyV, separate_flat sepV, reconV⟩

theorem allV1 : AllSucceed (newEvents wV (syncV wV).2) := allSucceed_of (by decide +kernel)
theorem allV2 : AllSucceed (newEvents (syncV wV).2 (syncV (syncV wV).2).2) := allSucceed_of (by decide +kernel)

/-- C72: the two syncs of `wV`. The second one sets the number of `a` to `007` again, which the class of the destination had read as `7`. -/
example := C72_second_sync_converges canV (self1 _) reorders_default (by decide) (syncV_pair wV) allV1 (by decide) reorders_default (syncV_pair (syncV wV).2) allV2
example := @C72_second_calls _ _ _ _ _ _ _ _ _ _ _ _ _ _ canV (self1 _) reorders_default (by decide) (syncV_pair wV) allV1 20 _ _ _ _ (syncV_pair (syncV wV).2)
example := C72_third_sync_idle canV (self1 _) reorders_default (by decide) (syncV_pair wV) allV1 reorders_default (syncV_pair (syncV wV).2) allV2
  reorders_default (syncV_pair (syncV (syncV wV).2).2)
example : calls (newEvents wV wV1) = [.create "vlan" [("name", "a")] [("number", "007"), ("note", "-")], .update "vlan" "b" [("number", "010")],
    .create "vlan" [("name", "d")] [("number", "4"), ("note", "-")], .delete "vlan" "e"] ∧
    calls (newEvents wV1 wV2) = [.update "vlan" "a" [("number", "007")]] := by decide +kernel

/-- One sync is not enough: after a sync in which all calls succeed there are diffs; after the second there are none. -/
theorem C72_one_sync_is_not_enough : AllSucceed (newEvents wV wV1) ∧ diffsV wV1 = some true ∧ diffsV wV2 = some false :=
  ⟨allV1, by decide +kernel, by decide +kernel⟩

def wP : World String (List Outcome) := addModels (flat 1 portS) [⟨portS, [("number", "007")], [], 0⟩] (world0 String _ [])
def syncP (w : World String (List Outcome)) := syncFrom 10 20 (scripted String) (flat 2 portD) (flat 1 portS) (DiffClass.default _) 0 none w
def wP1 := (syncP wP).2
def wP2 := (syncP wP1).2

/-- If the class reads an identifier as another value, syncs need not converge: the object is created with another unique id than it
is looked for under; the next sync, and the one after it, raise `ObjectAlreadyExists`, after user code has reported success. -/
theorem C72_parsed_identifier : AllSucceed (newEvents wP wP1) ∧ errOf (syncP wP) = none ∧ (snap (flat 2 portD) wP1).find "port" "007" = none ∧
    ((snap (flat 2 portD) wP1).find "port" "7").isSome = true ∧ errOf (syncP wP1) = some .objectAlreadyExists ∧
    AllSucceed (newEvents wP1 wP2) ∧ errOf (syncP wP2) = some .objectAlreadyExists :=
  ⟨allSucceed_of (by decide +kernel), by decide +kernel, by decide +kernel, by decide +kernel, by decide +kernel, allSucceed_of (by decide +kernel),
    by decide +kernel⟩

/-- The world after the first `get_or_instantiate`. -/
def wI := (getOrInstantiate (flat 2 portD) portD [("number", "007")] [] (world0 String (List Outcome) [])).2
/-- The same of `get_or_instantiate`: the second call with the same identifiers finds nothing, makes an instance, and cannot add it. -/
theorem C39_parsed_identifier :
    (getOrInstantiate (flat 2 portD) portD [("number", "007")] [] (world0 String (List Outcome) [])).1 = .ok (0, true) ∧
    (getOrInstantiate (flat 2 portD) portD [("number", "007")] [] wI).1 = .error .objectAlreadyExists := by
  constructor <;> decide +kernel

end DS.Ex
