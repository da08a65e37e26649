import Verif.Lemmas.SkipCount
import Verif.Props.Differ
/-!
# C06: what `skip` counts

`PassedOver` and the counts it is made of are defined in Verif/Spec/SkipCount.lean.
-/
set_option linter.unusedSectionVars false

namespace DS
variable {V E : Type} [PyVal V]

/-- **C06** For a diff computed by `diff_from`, `skip` is exactly: the number of objects of the types (`ts`) that are
top level in only one of the adapters, plus what the places at the top add (`PassedOver`) - one for every visit to an
excluded place, the children of types only one of two compared objects declares, and repetitions in child lists. -/
theorem C06_skip_exact {n : Nat} {src dst : Adapter V} {dc : DiffClass V} {flags : Nat} {w w' : World V E}
    {d : Diff V} (h : Comparable src dst w) (hdc : dc.Reorders) (hr : diffFrom n dst src dc flags w = (.ok d, w')) :
    ∃ (ts : List String) (tops : List (Pos V × Nat)),
      ts.Nodup ∧ (∀ t, t ∈ ts ↔ (t ∈ dst.topLevel ∧ t ∉ src.topLevel) ∨ (t ∈ src.topLevel ∧ t ∉ dst.topLevel)) ∧
      DistinctPos (tops.map Prod.fst) ∧ (∀ c, c ∈ tops.map Prod.fst ↔ IsTop src dst (snap src w) (snap dst w) c) ∧
      (∀ x ∈ tops, PassedOver flags (snap src w) (snap dst w) x.1 x.2) ∧
      d.skip = topOnly dst (snap src w) (snap dst w) ts + (tops.map Prod.snd).sum := by
  have hd := diffFrom_describes h.ok h.src_ok h.dst_ok h.fields h.src_types h.dst_types h.top_nodup hr
  have hs : ∀ e, InTree e d.kids → e.src ≠ none ∨ e.dst ≠ none := by
    intro e he
    obtain ⟨p, _, _, hde⟩ := hd.1.inTree he
    rw [hde.header.src_eq, hde.header.dst_eq]
    have := hde.good.some_side
    simpa using this
  have hsum := weightL_summary d.kids hs
  rw [← Diff.summary_eq_nodes d (by rw [hd.2]; exact hdc)] at hsum
  obtain ⟨_, h2⟩ := diffFrom_spec n dst src dc flags w h.ok.refs_lt h.ok.tbl_wf h.src_types h.dst_types
  cases hp : pDiff ⟨src, dst, flags⟩ (snap src w) (snap dst w) n with
  | error e => rw [hp, hr] at h2; cases h2
  | ok r =>
    obtain ⟨es, k⟩ := r
    rw [hp, hr] at h2
    obtain ⟨h2, _⟩ := h2
    cases h2
    obtain ⟨qs, q1, q2, q3, q4⟩ := pDiff_passed h.src_ok h.dst_ok h.fields h.top_nodup hp
    refine ⟨_, qs, symmDiff_nodup _ _, fun t => mem_symmDiff, q1, q2, q3, ?_⟩
    unfold Diff.skip
    simp only at hsum q4 ⊢
    omega

theorem DistinctPos.nodup {l : List (Pos V)} (h : DistinctPos l) : l.Nodup :=
  List.Pairwise.imp (fun hne hc => hne (by rw [hc]; exact ⟨rfl, rfl⟩)) h

theorem nodup_of_fst {α β : Type} {l : List (α × β)} (h : (l.map Prod.fst).Nodup) : l.Nodup :=
  (List.pairwise_map.1 h).imp (fun hne hc => hne (by rw [hc]))

/-- **C06** What a place adds to `skip` is determined by the contents of the adapters. -/
theorem C06_skip_determined {flags : Nat} {S D : Snap V} {p : Pos V} {k k' : Nat} (h : PassedOver flags S D p k)
    (h' : PassedOver flags S D p k') : k = k' := by
  induction h generalizing k' with
  | excluded hh =>
    cases h' with
    | excluded _ => rfl
    | shown _ _ hv => exact absurd hh hv
  | @shown p cts qs hv hn hc hd hi hp ih =>
    cases h' with
    | excluded hh => exact absurd hh hv
    | shown cts' qs' hv' hn' hc' hd' hi' hp' =>
      have h1 : cts.Perm cts' := (List.perm_ext_iff_of_nodup hn hn').2 (fun ct => (hc ct).trans (hc' ct).symm)
      have h2 : qs.Perm qs' := by
        refine (List.perm_ext_iff_of_nodup (nodup_of_fst hd.nodup) (nodup_of_fst hd'.nodup)).2 (fun x => ⟨fun hx => ?_, fun hx => ?_⟩)
        · obtain ⟨y, hy, he⟩ := List.mem_map.1 ((hi' x.1).2 ((hi x.1).1 (List.mem_map.2 ⟨x, hx, rfl⟩)))
          have := ih x hx (k' := y.2) (he ▸ hp' y hy)
          rwa [show x = y from Prod.ext he.symm this]
        · obtain ⟨y, hy, he⟩ := List.mem_map.1 ((hi x.1).2 ((hi' x.1).1 (List.mem_map.2 ⟨x, hx, rfl⟩)))
          have := ih y hy (k' := x.2) (he ▸ hp' x hx)
          rwa [show x = y from Prod.ext he.symm this.symm]
      have h3 : p.repeats (qs.map Prod.fst) = p.repeats (qs'.map Prod.fst) := by
        funext ct
        have : placesOf (qs.map Prod.fst) ct = placesOf (qs'.map Prod.fst) ct :=
          ((h2.map Prod.fst).filter _).length_eq
        simp only [Pos.repeats, this]
      rw [h3, sum_perm (h1.map _), sum_perm (h2.map Prod.snd)]

theorem mem_idsListed {o : Option (Model V)} {ct u : String} : u ∈ idsListed o ct ↔ listsO o ct u = true := by
  unfold idsListed listsO
  cases o with
  | none => simp
  | some m =>
    simp only [Model.lists]
    cases Dict.get? m.cls.children ct with
    | none => simp
    | some f =>
      simp only
      cases m.kidList f with
      | none => simp
      | some l => simp

/-- Without repetitions in child lists, the repetitions drop out of the count. -/
theorem repeats_zero {S D : Snap V} (hS : S.NoRepeats) (hD : D.NoRepeats) {p : Pos V} (hp : Stored S D p) {ps : List (Pos V)}
    (hi : ∀ c, c ∈ ps ↔ IsChild S D p c) {ct : String} (hct : comparesType p.src p.dst ct) : p.repeats ps ct = 0 := by
  have key : ∀ l : List String, l.Nodup → (∀ u ∈ l, listsO p.src ct u = true ∨ listsO p.dst ct u = true) →
      l.length ≤ placesOf ps ct := by
    intro l hl hm
    have := nodup_length_le hl (m := (ps.filter (fun c => c.type == ct)).map Pos.uid) (fun u hu => by
      refine List.mem_map.2 ⟨⟨ct, u, if listsO p.src ct u then S.find ct u else none,
        if listsO p.dst ct u then D.find ct u else none⟩, List.mem_filter.2 ⟨(hi _).2 ⟨hct, hm u hu, rfl, rfl⟩, by simp⟩, rfl⟩)
    simpa [placesOf] using this
  have h1 : (idsListed p.src ct).Nodup := by
    cases hs : p.src with
    | none => exact List.nodup_nil
    | some s => exact hS _ _ _ ct (hp.src s hs)
  have h2 : (idsListed p.dst ct).Nodup := by
    cases hs : p.dst with
    | none => exact List.nodup_nil
    | some s => exact hD _ _ _ ct (hp.dst s hs)
  have a := key _ h1 (fun u hu => .inl (mem_idsListed.1 hu))
  have b := key _ h2 (fun u hu => .inr (mem_idsListed.1 hu))
  unfold Pos.repeats
  omega

theorem IsChild.stored {S D : Snap V} {p c : Pos V} (h : IsChild S D p c) : Stored S D c := by
  constructor
  · intro m hm
    rw [h.src_eq] at hm
    split at hm
    · exact hm
    · cases hm
  · intro m hm
    rw [h.dst_eq] at hm
    split at hm
    · exact hm
    · cases hm

/-- **C06** When no flag excludes anything, the adapters have the same top-level types, objects with the same type and
unique id declare the same child types and no object lists a child twice, nothing is skipped. -/
theorem C06_nothing_skipped {n : Nat} {src dst : Adapter V} {dc : DiffClass V} {flags : Nat} {w w' : World V E}
    {d : Diff V} (h : Comparable src dst w) (hdc : dc.Reorders) (hr : diffFrom n dst src dc flags w = (.ok d, w'))
    (htop : ∀ t, t ∈ src.topLevel ↔ t ∈ dst.topLevel)
    (hvis : ∀ c, Compared src dst flags (snap src w) (snap dst w) c → c.Visible flags)
    (hcls : ∀ t u s d, (snap src w).find t u = some s → (snap dst w).find t u = some d →
      ∀ ct, ct ∈ Dict.keys s.cls.children ↔ ct ∈ Dict.keys d.cls.children)
    (hS : (snap src w).NoRepeats) (hD : (snap dst w).NoRepeats) : d.skip = 0 := by
  obtain ⟨ts, qs, _, h2, _, h4, h5, h6⟩ := C06_skip_exact h hdc hr
  have hts : ts = [] := by
    apply List.eq_nil_iff_forall_not_mem.2
    intro t ht
    rcases (h2 t).1 ht with ⟨a, b⟩ | ⟨a, b⟩
    · exact b ((htop t).2 a)
    · exact b ((htop t).1 a)
  subst hts
  have key : ∀ p k, PassedOver flags (snap src w) (snap dst w) p k → Compared src dst flags (snap src w) (snap dst w) p →
      Stored (snap src w) (snap dst w) p → k = 0 := by
    intro p k hp
    induction hp with
    | excluded hh => intro hc; exact absurd hh (hvis _ hc)
    | @shown p cts qs hv hn hc hd hi hp ih =>
      intro hcp hst
      have e1 : p.oneSided = 0 := by
        obtain ⟨t, u, s, d⟩ := p
        cases s with
        | none => rfl
        | some s => cases d with
          | none => rfl
          | some d =>
            have hk := hcls _ _ _ _ (hst.src s rfl) (hst.dst d rfl)
            have z : ∀ a b : Model V, (∀ ct, ct ∈ Dict.keys a.cls.children → ct ∈ Dict.keys b.cls.children) → undeclared a b = 0 := by
              intro a b hab
              unfold undeclared
              rw [List.filter_eq_nil_iff.2]
              · rfl
              · intro ct hct; simpa using hab ct hct
            simp only [Pos.oneSided, z s d (fun ct => (hk ct).1), z d s (fun ct => (hk ct).2)]
      have e2 : (cts.map (p.repeats (qs.map Prod.fst))).sum = 0 := by
        have : ∀ l : List String, (∀ ct ∈ l, p.repeats (qs.map Prod.fst) ct = 0) → (l.map (p.repeats (qs.map Prod.fst))).sum = 0 := by
          intro l
          induction l with
          | nil => intro _; rfl
          | cons a l ih => intro hl; simp [hl a (by simp), ih (fun x hx => hl x (List.mem_cons_of_mem _ hx))]
        exact this cts (fun ct hct => repeats_zero hS hD hst hi ((hc ct).1 hct))
      have e3 : ∀ l : List (Pos V × Nat), (∀ x ∈ l, x.2 = 0) → (l.map Prod.snd).sum = 0 := by
        intro l
        induction l with
        | nil => intro _; rfl
        | cons a l ih => intro hl; simp [hl a (by simp), ih (fun x hx => hl x (List.mem_cons_of_mem _ hx))]
      rw [e1, e2, e3 qs]
      intro x hx
      have hx' := (hi x.1).1 (List.mem_map.2 ⟨x, hx, rfl⟩)
      exact ih x hx (.child hcp hv hx') hx'.stored
  have : (qs.map Prod.snd).sum = 0 := by
    have e3 : ∀ l : List (Pos V × Nat), (∀ x ∈ l, x.2 = 0) → (l.map Prod.snd).sum = 0 := by
      intro l
      induction l with
      | nil => intro _; rfl
      | cons a l ih => intro hl; simp [hl a (by simp), ih (fun x hx => hl x (List.mem_cons_of_mem _ hx))]
    refine e3 qs (fun x hx => ?_)
    have hx' := (h4 x.1).1 (List.mem_map.2 ⟨x, hx, rfl⟩)
    exact key _ _ (h5 x hx) (.top hx') ⟨fun m hm => by rw [← hm, hx'.src_eq], fun m hm => by rw [← hm, hx'.dst_eq]⟩
  rw [h6, this]
  rfl

/-! ## examples -/

namespace Ex

/-- Every object found in a local store is in the heap. -/
theorem find_heap {E : Type} {w : World String E} (h : w.OK) {k : Nat} {top : List String} {t u : String} {m : Model String}
    (hm : (snap { ad k with topLevel := top } w).find t u = some m) : ∃ r, r < w.next ∧ (w.heap r).m = m := by
  simp only [snap, ad, Option.map_eq_some_iff] at hm
  obtain ⟨r, hr, rfl⟩ := hm
  exact ⟨r, h.refs_lt _ _ _ _ hr, rfl⟩

/-- A site class whose instances have no device children but rack children. -/
def rackSiteC : ModelClass String where
  name := "site"
  fields := [("name", none)]
  identifiers := ["name"]
  children := [("rack", "racks")]

/-- Two adapters: `nyc` lists two devices on the source side, three racks on the destination side; `sfo` is on the source
side only and lists a device three times; `lax` is flagged IGNORE on both sides.  The racks are top level in the
destination only. -/
def wSkip : World String (List Outcome) :=
  addModels (ad 1) [site "nyc" ["a", "b"], site "sfo" ["a", "a", "a"], site "lax" ["a"] 1, device "a" "leaf" []]
    (addModels { ad 2 with topLevel := ["site", "device"] }
      [⟨rackSiteC, [("name", "nyc")], [("racks", ["r1", "r2", "r3"])], 0⟩, site "lax" ["b"] 1, device "b" "leaf" [],
        device "c" "leaf" []]
      (world0 String _ []))

theorem wSkip_ok : wSkip.OK := addModels_ok _ _ _ (addModels_ok _ _ _ (world0_ok _))

theorem comparable_wSkip : Comparable (ad 1) { ad 2 with topLevel := ["site", "device"] } wSkip where
  ok := addModels_ok _ _ _ (addModels_ok _ _ _ (world0_ok _))
  src_ok := consistent_local (addModels_ok _ _ _ (addModels_ok _ _ _ (world0_ok _))) rfl (by decide +kernel)
  dst_ok := consistent_local (addModels_ok _ _ _ (addModels_ok _ _ _ (world0_ok _))) rfl (by decide +kernel)
  top_nodup := by decide +kernel
  src_types := serves_local rfl _
  dst_types := serves_local rfl _
  fields := by
    have hf : ∀ r, r < wSkip.next → ∀ r', r' < wSkip.next → ∀ p ∈ (wSkip.heap r).m.cls.children,
        ∀ q ∈ (wSkip.heap r').m.cls.children, p.1 = q.1 → p.2 = q.2 := by decide +kernel
    intro t u s d h1 h2 ct f f' g1 g2
    obtain ⟨r, hr, rfl⟩ := find_heap wSkip_ok h1
    obtain ⟨r', hr', rfl⟩ := find_heap wSkip_ok h2
    exact hf r hr r' hr' (ct, f) (Dict.mem_of_get? g1) (ct, f') (Dict.mem_of_get? g2) rfl

/-- The two objects of the type that is top level on one side (2), the children of `nyc` (2 + 3), the repetitions at
`sfo` (2) and the pair `lax` (1). -/
example : sumOf (diffFrom 10 { ad 2 with topLevel := ["site", "device"] } (ad 1) (DiffClass.default _) 0 wSkip) =
    some (⟨2, 0, 0, 1⟩, 10, 3, true) := by decide +kernel

/-- Nothing is skipped where the hypotheses of `C06_nothing_skipped` hold. -/
example {d : Diff String} {w' : World String (List Outcome)}
    (hr : diffFrom 10 (ad 2) (ad 1) (DiffClass.default _) 0 w1 = (.ok d, w')) : d.skip = 0 := by
  have hflags : ∀ r, r < w1.next → (w1.heap r).m.flags = 0 := by decide +kernel
  have hcls : ∀ r, r < w1.next → ∀ r', r' < w1.next → (w1.heap r).m.type = (w1.heap r').m.type →
      Dict.keys (w1.heap r).m.cls.children = Dict.keys (w1.heap r').m.cls.children := by decide +kernel
  have hrep : ∀ r, r < w1.next → ∀ p ∈ (w1.heap r).m.kids, p.2.Nodup := by decide +kernel
  have hnr : ∀ k, (snap (ad k) w1).NoRepeats := by
    intro k t u m ct hm
    obtain ⟨r, hr, rfl⟩ := find_heap w1_ok (top := ["site"]) hm
    unfold idsListed
    simp only
    split
    · exact List.nodup_nil
    · rename_i f _
      cases hk : (w1.heap r).m.kidList f with
      | none => exact List.nodup_nil
      | some l => exact hrep r hr (f, l) (Dict.mem_of_get? hk)
  have hz : ∀ k t u m, (snap (ad k) w1).find t u = some m → m.flags = 0 := by
    intro k t u m hm
    obtain ⟨r, hr, rfl⟩ := find_heap w1_ok (top := ["site"]) hm
    exact hflags r hr
  refine C06_nothing_skipped comparable_w1 (fun _ _ => List.Perm.refl _) hr (fun t => Iff.rfl) ?_ ?_ (hnr 1) (hnr 2)
  · intro c hc hh
    have hs : Stored (snap (ad 1) w1) (snap (ad 2) w1) c := by
      cases hc with
      | top h => exact ⟨fun m hm => by rw [← hm, h.src_eq], fun m hm => by rw [← hm, h.dst_eq]⟩
      | child _ _ h => exact h.stored
    obtain ⟨t, u, s, d⟩ := c
    simp only at hh hs
    have hfz : ∀ f, flagOn 0 f = false := by intro f; simp [flagOn]
    cases hh with
    | globalSrc s h => rw [hfz] at h; cases h
    | globalDst s h => rw [hfz] at h; cases h
    | modelSrc s h => rw [hz 1 _ _ _ (hs.src s rfl), hfz] at h; cases h
    | modelDst d h => rw [hz 2 _ _ _ (hs.dst d rfl), hfz] at h; cases h
    | ignoreSrc s d h => rw [hz 1 _ _ _ (hs.src s rfl), hfz] at h; cases h
    | ignoreDst s d h => rw [hz 2 _ _ _ (hs.dst d rfl), hfz] at h; cases h
  · intro t u s d h1 h2 ct
    have e1 := (comparable_w1.src_ok.key_ok _ _ _ h1).1
    have e2 := (comparable_w1.dst_ok.key_ok _ _ _ h2).1
    obtain ⟨r, hr, rfl⟩ := find_heap w1_ok (top := ["site"]) h1
    obtain ⟨r', hr', rfl⟩ := find_heap w1_ok (top := ["site"]) h2
    rw [hcls r hr r' hr' (e1.trans e2.symm)]

end Ex

end DS
