import Verif.Spec.RoundTrip
import Verif.Lemmas.Obj
import Verif.Lemmas.StoreOps
/-! Exporting an adapter and loading the export. -/
set_option linter.unusedSectionVars false

namespace DS
variable {V E : Type} [PyVal V]

/-! ## one object -/

theorem get?_filter_kv {α : Type} (q : String × α → Bool) {d : Dict α} (hd : Dict.WF d) (x : String) :
    Dict.get? (d.filter q) x = (Dict.get? d x).bind (fun v => if q (x, v) then some v else none) := by
  have hwf : Dict.WF (d.filter q) := by
    unfold Dict.WF Dict.keys
    exact (List.filter_sublist.map Prod.fst).nodup hd
  cases h : Dict.get? d x with
  | none =>
    rw [Option.bind_none, Dict.get?_eq_none_iff]
    intro hm
    obtain ⟨v, hv⟩ := Dict.mem_keys_iff.1 hm
    have := (List.mem_filter.1 (Dict.mem_of_get? hv)).1
    rw [Dict.get?_of_mem hd this] at h; cases h
  | some v =>
    rw [Option.bind_some]
    split
    · rename_i hq
      exact Dict.get?_of_mem hwf (List.mem_filter.2 ⟨Dict.mem_of_get? h, hq⟩)
    · rename_i hq
      rw [Dict.get?_eq_none_iff]
      intro hm
      obtain ⟨v', hv⟩ := Dict.mem_keys_iff.1 hm
      obtain ⟨h1, h2⟩ := List.mem_filter.1 (Dict.mem_of_get? hv)
      rw [Dict.get?_of_mem hd h1] at h; cases h
      exact hq h2

/-- What the export says about a field. -/
theorem get?_toDict_vals {m : Model V} (hm : m.Complete) (hc : m.cls.Valid) (ed : Bool) (f : String) :
    Dict.get? (m.toDict ed).vals f = (Dict.get? m.vals f).bind (fun v =>
      match ed, Dict.get? m.cls.fields f with
      | true, some (some d) => if PyVal.eq v d then none else some v
      | _, _ => some v) := by
  unfold Model.toDict
  cases ed with
  | false => simp
  | true =>
    simp only [if_true]
    rw [get?_filter_kv _ (Model.vals_wf hm hc)]
    congr 1
    funext v
    dsimp only
    cases h : Dict.get? m.cls.fields f with
    | none => simp
    | some d =>
      cases d with
      | none => simp
      | some d => simp only [Bool.not_eq_true']; cases PyVal.eq v d <;> simp

theorem get?_toDict_kids {m : Model V} (hm : m.Complete) (ed : Bool) (f : String) :
    (Dict.get? (m.toDict ed).kids f).getD [] = (m.kidList f).getD [] := by
  unfold Model.toDict Model.kidList
  cases ed with
  | false => simp
  | true =>
    simp only [if_true]
    rw [get?_filter_kv _ hm.kids_wf]
    cases Dict.get? m.kids f with
    | none => rfl
    | some l => cases l <;> simp

theorem toDict_flags (m : Model V) (ed : Bool) : (m.toDict ed).flags.getD m.cls.defaultFlags = m.flags := by
  unfold Model.toDict
  cases ed with
  | false => simp
  | true =>
    simp only [if_true]
    split
    · rename_i h; simp [h]
    · simp

theorem mem_fields_of_get? {c : ModelClass V} {f : String} {d : Option V} (h : Dict.get? c.fields f = some d) : (f, d) ∈ c.fields :=
  Dict.mem_of_get? h

theorem get?_ofList_map {α : Type} (l : List String) (g : String → α) (f : String) :
    Dict.get? (Dict.ofList (l.map (fun x => (x, g x)))) f = if f ∈ l then some (g f) else none := by
  have key : ∀ (l : List String) (d : Dict α), Dict.get? ((l.map (fun x => (x, g x))).foldl (fun d p => Dict.set d p.1 p.2) d) f =
      if f ∈ l then some (g f) else Dict.get? d f := by
    intro l
    induction l with
    | nil => intro d; simp
    | cons x l ih =>
      intro d
      rw [List.map_cons, List.foldl_cons, ih]
      by_cases h1 : f ∈ l
      · simp [h1]
      · rw [if_neg h1]
        by_cases h2 : f = x
        · subst h2; simp
        · have : f ∉ x :: l := by simp [h1, h2]
          rw [if_neg this, Dict.get?_set_ne _ (fun h => h2 h.symm)]
  unfold Dict.ofList
  rw [key]; simp

/-- Loading the export of an object gives it back. -/
theorem restore {m : Model V} (hm : m.Complete) (hc : m.cls.Valid) (ed : Bool) (hp : PlainDefaults m) (hr : Reparses m) :
    ∃ m', m.cls.instantiate (m.toDict ed).vals (m.toDict ed).kids (m.toDict ed).flags = .ok m' ∧ m'.Complete ∧ Restored ed m m' := by
  have hex : ∃ m', m.cls.instantiate (m.toDict ed).vals (m.toDict ed).kids (m.toDict ed).flags = .ok m' := by
    have hsub : ∀ f v, Dict.get? (m.toDict ed).vals f = some v → Dict.get? m.vals f = some v := by
      intro f v h
      rw [get?_toDict_vals hm hc] at h
      cases hv : Dict.get? m.vals f with
      | none => rw [hv] at h; cases h
      | some x =>
        rw [hv, Option.bind_some] at h
        split at h
        · split at h
          · cases h
          · exact h
        · exact h
    apply instantiate_isOk _ _ ?_ (fun f _ v h => by rw [hr f v (hsub f v h)]; simp)
    intro f hf
    have hfn : f ∈ m.cls.fieldNames := List.mem_map.2 ⟨_, hf, rfl⟩
    obtain ⟨v, hv⟩ := Model.vals_some hm hfn
    have hg : Dict.get? m.cls.fields f = some none := Dict.get?_of_mem hc.fields_nodup hf
    apply Dict.mem_keys_iff.2
    refine ⟨v, ?_⟩
    rw [get?_toDict_vals hm hc, hv, hg]
    cases ed <;> rfl
  obtain ⟨m', h⟩ := hex
  obtain ⟨h1, h2, h3, h4, _⟩ := instantiate_ok h
  have hcomp := instantiate_complete h
  have hvals : ∀ f v, Dict.get? m.vals f = some v → ∃ v', Dict.get? m'.vals f = some v' ∧
      (v' = v ∨ (ed = true ∧ PyVal.eq v v' = true ∧ Dict.get? m.cls.fields f = some (some v'))) := by
    intro f v hv
    have hfn : f ∈ m.cls.fieldNames := by rw [← hm.vals_keys]; exact Dict.mem_keys_iff.2 ⟨v, hv⟩
    obtain ⟨⟨f', d⟩, hd, rfl⟩ := List.mem_map.1 hfn
    have hg : Dict.get? m.cls.fields f' = some d := Dict.get?_of_mem hc.fields_nodup hd
    have h5 := instantiate_get? hc h hd
    dsimp only at hv h5 ⊢
    rw [taken_eq] at h5
    rw [get?_toDict_vals hm hc, hv, hg] at h5
    have hr' := hr f' v hv
    cases ed with
    | false => exact ⟨v, by simpa [hr'] using h5, .inl rfl⟩
    | true =>
      cases d with
      | none => exact ⟨v, by simpa [hr'] using h5, .inl rfl⟩
      | some d =>
        simp only [Option.bind_some] at h5
        by_cases he : PyVal.eq v d = true
        · rw [if_pos he] at h5
          exact ⟨d, by simpa using h5, .inr ⟨rfl, he, hg⟩⟩
        · rw [if_neg he] at h5
          exact ⟨v, by simpa [hr'] using h5, .inl rfl⟩
  refine ⟨m', h, hcomp, h1, ?_, by rw [h4, toDict_flags], fun f => ?_, by rw [h2, hm.vals_keys], hvals⟩
  · unfold Model.uid
    rw [h1]
    congr 1
    apply List.map_congr_left
    intro f hf
    obtain ⟨v, hv⟩ := Model.vals_some hm (hc.ids_fields f hf)
    obtain ⟨v', h6, h7⟩ := hvals f v hv
    unfold Model.strField
    rw [hv, h6]
    rcases h7 with rfl | ⟨_, h7, h8⟩
    · rfl
    · exact (hp f v v' hv h8 h7).2 hf
  · unfold Model.kidList
    rw [h3, get?_ofList_map m.cls.childFields (fun f => (Dict.get? (m.toDict ed).kids f).getD []), get?_toDict_kids hm]
    split
    · rename_i hf
      obtain ⟨l, hl⟩ := Dict.mem_keys_iff.1 ((hm.kids_keys f).2 hf)
      unfold Model.kidList
      rw [hl]; rfl
    · rename_i hf
      exact (Dict.get?_eq_none_iff.2 (fun hk => hf ((hm.kids_keys f).1 hk))).symm

/-- Its export is the same. -/
theorem restored_toDict {m m' : Model V} {ed : Bool} (hm : m.Complete) (hc : m.cls.Valid) (hm' : m'.Complete) (h : Restored ed m m')
    (hp : PlainDefaults m) : SameDict (m'.toDict ed) (m.toDict ed) where
  flags := by unfold Model.toDict; rw [h.flags, h.cls]; cases ed <;> rfl
  kids f := by
    unfold Model.toDict
    cases ed with
    | false => exact h.kids f
    | true =>
      simp only [if_true]
      rw [get?_filter_kv _ hm.kids_wf, get?_filter_kv _ hm'.kids_wf]
      have := h.kids f
      unfold Model.kidList at this
      rw [this]
  vals f := by
    rw [get?_toDict_vals hm hc, get?_toDict_vals hm' (h.cls ▸ hc), h.cls]
    cases hv : Dict.get? m.vals f with
    | none =>
      have : Dict.get? m'.vals f = none := by
        rw [Dict.get?_eq_none_iff] at hv ⊢
        rw [h.keys]; exact hv
      rw [this]
    | some v =>
      obtain ⟨v', h1, h2⟩ := h.vals f v hv
      rw [h1]
      simp only [Option.bind_some]
      rcases h2 with rfl | ⟨rfl, h3, h4⟩
      · rfl
      · rw [h4]
        simp only [h3, (hp f v v' hv h4 h3).1, if_true]

/-! ## the export -/

/-- The export of the objects of a type. -/
def exportOf (S : Snap V) (ed : Bool) (t : String) : Dict (ObjDict V) := (S.all t).map (fun m => (m.uid, m.toDict ed))

theorem exportOf_keys (S : Snap V) (ed : Bool) (t : String) : Dict.keys (exportOf S ed t) = (S.all t).map Model.uid := by
  unfold exportOf Dict.keys; rw [List.map_map]; rfl

theorem exportOf_wf {S : Snap V} (hS : S.Consistent) (ed : Bool) (t : String) : Dict.WF (exportOf S ed t) := by
  unfold Dict.WF; rw [exportOf_keys]; exact hS.all_nodup t

theorem get?_exportOf {S : Snap V} (hS : S.Consistent) (ed : Bool) (t u : String) :
    Dict.get? (exportOf S ed t) u = (S.find t u).map (fun m => m.toDict ed) := by
  cases h : S.find t u with
  | none =>
    rw [Option.map_none, Dict.get?_eq_none_iff, exportOf_keys]
    intro hm
    obtain ⟨m, h1, rfl⟩ := List.mem_map.1 hm
    obtain ⟨u', h2⟩ := (hS.all_iff t m).1 h1
    rw [(hS.key_ok _ _ _ h2).2, h2] at h; cases h
  | some m =>
    refine Dict.get?_of_mem (exportOf_wf hS ed t) ?_
    refine List.mem_map.2 ⟨m, (hS.all_iff t m).2 ⟨u, h⟩, ?_⟩
    rw [(hS.key_ok _ _ _ h).2]

theorem dictModels_eq (ed : Bool) (t : String) (ms : List (Model V)) : ∀ (data : Dict (Dict (ObjDict V))) (d : Dict (ObjDict V)),
    t ∉ Dict.keys data → (∀ m ∈ ms, m.type = t) → (ms.map Model.uid).Nodup → (∀ m ∈ ms, m.uid ∉ Dict.keys d) →
    dictModels ed ms (data ++ [(t, d)]) = .ok (data ++ [(t, d ++ ms.map (fun m => (m.uid, m.toDict ed)))]) := by
  induction ms with
  | nil => intro data d _ _ _ _; simp [dictModels]
  | cons m ms ih =>
    intro data d ht htype hnd hk
    have hget : Dict.get? (data ++ [(t, d)]) m.type = some d := by
      rw [htype m (by simp), Dict.get?_append, Dict.get?_eq_none_iff.2 ht]; simp [Dict.get?_cons]
    have hset : ∀ d' : Dict (ObjDict V), Dict.set (data ++ [(t, d)]) t d' = data ++ [(t, d')] := by
      intro d'
      clear hget ih
      induction data with
      | nil => simp [Dict.set]
      | cons p data ih =>
        obtain ⟨k, x⟩ := p
        rw [Dict.keys_cons, List.mem_cons, not_or] at ht
        have hne : ¬ k = t := fun h => ht.1 h.symm
        simp only [List.cons_append, Dict.set, if_neg hne]
        rw [ih ht.2]
    unfold dictModels
    rw [hget]
    dsimp only
    rw [htype m (by simp), hset, Dict.set_of_not_mem (hk m (by simp)), ih data _ ht (fun x hx => htype x (by simp [hx]))]
    · simp
    · rw [List.map_cons, List.nodup_cons] at hnd; exact hnd.2
    · intro x hx hm
      unfold Dict.keys at hm
      rw [List.map_append, List.mem_append] at hm
      rcases hm with hm | hm
      · exact hk x (by simp [hx]) hm
      · simp only [List.map_cons, List.map_nil, List.mem_singleton] at hm
        rw [List.map_cons, List.nodup_cons] at hnd
        exact hnd.1 (hm ▸ List.mem_map.2 ⟨x, hx, rfl⟩)

theorem dictNames_eq {A : Adapter V} {S : Snap V} (hS : S.Consistent) (ed : Bool) (ts : List String) :
    ∀ (data : Dict (Dict (ObjDict V))) (w : World V E), w.OK → snap A w = S → ts.Nodup → (∀ t ∈ ts, A.Takes t) → (∀ t ∈ ts, t ∉ Dict.keys data) →
    ∃ w', dictNames A ed ts data w = (.ok (data ++ ts.map (fun t => (t, exportOf S ed t))), w') ∧ RRel w w' := by
  induction ts with
  | nil => intro data w _ _ _ _ _; exact ⟨w, by simp [dictNames, M.pure_def], RRel.refl w⟩
  | cons t ts ih =>
    intro data w hw hsn hnd htk hk
    obtain ⟨h1, h2⟩ := getAllModels_spec A t w hw.refs_lt hw.tbl_wf
    rw [← snap_all (htk t (by simp)), hsn] at h2
    unfold dictNames
    rw [M.bind_ok (Prod.ext h2 rfl : getAllModels A t w = (.ok (S.all t), _))]
    have hne : t ∉ Dict.keys data := hk t (by simp)
    rw [Dict.set_of_not_mem hne]
    have hdm := dictModels_eq ed t (S.all t) data [] hne (fun m hm => by
      obtain ⟨u, hu⟩ := (hS.all_iff t m).1 hm
      exact (hS.key_ok _ _ _ hu).1) (hS.all_nodup t) (fun _ _ => by simp)
    rw [hdm]
    rw [List.nodup_cons] at hnd
    obtain ⟨w', h3, h4⟩ := ih (data ++ [(t, exportOf S ed t)]) (getAllModels A t w).2 (h1.toDRel.ok hw)
      ((h1.toDRel.snap_eq hw.refs_lt hw.tbl_wf A).trans hsn) hnd.2 (fun x hx => htk x (by simp [hx])) (by
        intro x hx hm
        unfold Dict.keys at hm
        rw [List.map_append, List.mem_append] at hm
        rcases hm with hm | hm
        · exact hk x (by simp [hx]) hm
        · simp only [List.map_cons, List.map_nil, List.mem_singleton] at hm
          exact hnd.1 (hm ▸ hx))
    refine ⟨w', ?_, h1.trans h4⟩
    rw [List.append_assoc] at h3
    exact h3

/-- The export of an adapter. -/
theorem adapterDict_eq {A : Adapter V} {w : World V E} (hw : w.OK) (hS : (snap A w).Consistent) (ed : Bool) {ts : List String}
    (hts : getAllModelNames A w = (.ok ts, w)) (hnd : ts.Nodup) (htk : ∀ t ∈ ts, A.Takes t) :
    ∃ w', adapterDict A ed w = (.ok (ts.map (fun t => (t, exportOf (snap A w) ed t))), w') ∧ RRel w w' := by
  obtain ⟨w', h1, h2⟩ := dictNames_eq (A := A) hS ed ts [] w hw rfl hnd htk (by simp)
  refine ⟨w', ?_, h2⟩
  unfold adapterDict
  rw [M.bind_ok hts]
  exact h1

theorem get?_map_pair {α : Type} (ts : List String) (g : String → α) (t : String) :
    Dict.get? (ts.map (fun t => (t, g t))) t = if t ∈ ts then some (g t) else none := by
  induction ts with
  | nil => rfl
  | cons x ts ih =>
    rw [List.map_cons, Dict.get?_cons, ih]
    by_cases h : x = t
    · subst h; simp
    · rw [if_neg h]
      by_cases h2 : t ∈ ts
      · simp [h2]
      · rw [if_neg h2, if_neg]
        simp [h2, Ne.symm h]

/-- The entries of the export. -/
theorem entry_export {S : Snap V} (hS : S.Consistent) (ed : Bool) {ts : List String} (hcov : ∀ t, (∃ u, S.find t u ≠ none) → t ∈ ts) (t u : String) :
    entry (ts.map (fun t => (t, exportOf S ed t))) t u = (S.find t u).map (fun m => m.toDict ed) := by
  unfold entry
  rw [get?_map_pair]
  split
  · exact get?_exportOf hS ed t u
  · rename_i h
    have : S.find t u = none := Classical.byContradiction fun hn => h (hcov t ⟨u, hn⟩)
    rw [this]; rfl

/-! ## loading -/

/-- What adding one new object to an adapter does, for types with the property `Q`. -/
def Loads (B : Adapter V) (I : World V E → Prop) (Q : String → Prop) : Prop :=
  ∀ w m, I w → Q m.type → (snap B w).find m.type m.uid = none →
    ∃ w', (alloc { m := m } >>= fun r => add B r) w = (.ok (), w') ∧ I w' ∧
      ∀ t u, Q t → (snap B w').find t u = if t = m.type ∧ u = m.uid then some m else (snap B w).find t u

section
variable {B : Adapter V} {I : World V E → Prop} {Q : String → Prop} (hL : Loads B I Q)
include hL

theorem load_list (ed : Bool) (t : String) (ht : Q t) (c : ModelClass V) (ms : List (Model V)) : ∀ w, I w →
    (∀ m ∈ ms, m.cls = c ∧ m.type = t ∧ m.Complete ∧ m.cls.Valid ∧ PlainDefaults m ∧ Reparses m) → (ms.map Model.uid).Nodup →
    (∀ m ∈ ms, (snap B w).find t m.uid = none) →
    ∃ w', M.forEach (loadOne B c) (ms.map (fun m => m.toDict ed)) w = (.ok (), w') ∧ I w' ∧
      (∀ m ∈ ms, RestoredO ed (some m) ((snap B w').find t m.uid)) ∧
      (∀ t' u, Q t' → (t' ≠ t ∨ u ∉ ms.map Model.uid) → (snap B w').find t' u = (snap B w).find t' u) := by
  induction ms with
  | nil => intro w hw _ _ _; exact ⟨w, rfl, hw, fun _ h => by simp at h, fun _ _ _ _ => rfl⟩
  | cons m ms ih =>
    intro w hw hms hnd hnone
    obtain ⟨h1, h2, h3, h4, h5, h5'⟩ := hms m (by simp)
    obtain ⟨m', h6, h7, h8⟩ := restore h3 h4 ed h5 h5'
    rw [h1] at h6
    have ht' : m'.type = t := by rw [← h2]; unfold Model.type; rw [h8.cls]
    obtain ⟨w1, h9, h10, h11⟩ := hL w m' hw (ht' ▸ ht) (by rw [ht', h8.uid]; exact hnone m (by simp))
    rw [ht', h8.uid] at h11
    rw [List.map_cons, List.nodup_cons] at hnd
    have hne : ∀ x ∈ ms, x.uid ≠ m.uid := fun x hx he => hnd.1 (he ▸ List.mem_map.2 ⟨x, hx, rfl⟩)
    obtain ⟨w2, i1, i2, i3, i4⟩ := ih w1 h10 (fun x hx => hms x (by simp [hx])) hnd.2 (fun x hx => by
      rw [h11 t x.uid ht, if_neg (fun h => hne x hx h.2)]; exact hnone x (by simp [hx]))
    have hone : loadOne B c (m.toDict ed) w = (.ok (), w1) := by
      unfold loadOne
      rw [M.bind_ok (show M.ofExcept (c.instantiate (m.toDict ed).vals (m.toDict ed).kids (m.toDict ed).flags) w = (.ok m', w) by rw [h6]; rfl)]
      exact h9
    refine ⟨w2, ?_, i2, ?_, ?_⟩
    · rw [List.map_cons, M.forEach_cons, M.bind_ok hone]; exact i1
    · intro x hx
      rcases List.mem_cons.1 hx with rfl | hx
      · rw [i4 t x.uid ht (.inr hnd.1), h11 t x.uid ht, if_pos ⟨rfl, rfl⟩]
        exact ⟨h8, h7⟩
      · exact i3 x hx
    · intro t' u hq hc
      rw [List.map_cons, List.mem_cons, not_or] at hc
      rw [i4 t' u hq (hc.imp_right And.right), h11 t' u hq, if_neg]
      rintro ⟨rfl, rfl⟩
      rcases hc with hc | hc
      · exact hc rfl
      · exact hc.1 rfl

theorem load_types (ed : Bool) {S : Snap V} (hS : S.Consistent) {ts0 : List String} (hcov : ∀ t, (∃ u, S.find t u ≠ none) → t ∈ ts0)
    (hms : ∀ t u m, S.find t u = some m → Dict.get? B.classes t = some m.cls ∧ m.Complete ∧ m.cls.Valid ∧ PlainDefaults m ∧ Reparses m) (ts : List String) :
    ∀ w, I w → ts.Nodup → (∀ t ∈ ts, Q t ∧ t ∈ Dict.keys B.classes) → (∀ t ∈ ts, ∀ u, (snap B w).find t u = none) →
    ∃ w', M.forEach (fun t => do
        let c ← M.ofOption .attributeError (Dict.get? B.classes t)
        M.forEach (loadOne B c) (Dict.values ((Dict.get? (ts0.map (fun t => (t, exportOf S ed t))) t).getD []))) ts w = (.ok (), w') ∧ I w' ∧
      (∀ t ∈ ts, ∀ u, RestoredO ed (S.find t u) ((snap B w').find t u)) ∧
      (∀ t u, Q t → t ∉ ts → (snap B w').find t u = (snap B w).find t u) := by
  induction ts with
  | nil => intro w hw _ _ _; exact ⟨w, rfl, hw, fun _ h => by simp at h, fun _ _ _ _ => rfl⟩
  | cons t ts ih =>
    intro w hw hnd hk hnone
    obtain ⟨hq, hkt⟩ := hk t (by simp)
    obtain ⟨c, hc⟩ := Dict.mem_keys_iff.1 hkt
    have hvals : Dict.values ((Dict.get? (ts0.map (fun t => (t, exportOf S ed t))) t).getD []) = (S.all t).map (fun m => m.toDict ed) := by
      rw [get?_map_pair]
      split
      · unfold exportOf Dict.values; rw [Option.getD_some, List.map_map]; rfl
      · rename_i hn
        have : S.all t = [] := by
          cases hall : S.all t with
          | nil => rfl
          | cons m l =>
            obtain ⟨u, hu⟩ := (hS.all_iff t m).1 (by rw [hall]; simp)
            exact absurd (hcov t ⟨u, by rw [hu]; simp⟩) hn
        rw [this]; rfl
    obtain ⟨w1, h1, h2, h3, h4⟩ := load_list hL ed t hq c (S.all t) w hw (fun m hm => by
      obtain ⟨u, hu⟩ := (hS.all_iff t m).1 hm
      obtain ⟨a, b, d, e⟩ := hms t u m hu
      exact ⟨Option.some.inj (a.symm.trans hc), (hS.key_ok _ _ _ hu).1, b, d, e⟩) (hS.all_nodup t) (fun m _ => hnone t (by simp) m.uid)
    rw [List.nodup_cons] at hnd
    obtain ⟨w2, i1, i2, i3, i4⟩ := ih w1 h2 hnd.2 (fun x hx => hk x (by simp [hx])) (fun x hx u => by
      rw [h4 x u (hk x (by simp [hx])).1 (.inl (fun h => hnd.1 (h ▸ hx)))]
      exact hnone x (by simp [hx]) u)
    refine ⟨w2, ?_, i2, ?_, ?_⟩
    · rw [M.forEach_cons]
      have : ((M.ofOption .attributeError (Dict.get? B.classes t) >>= fun c =>
          M.forEach (loadOne B c) (Dict.values ((Dict.get? (ts0.map (fun t => (t, exportOf S ed t))) t).getD []))) : M V E Unit) w = (.ok (), w1) := by
        rw [hvals, M.bind_ok (show M.ofOption .attributeError (Dict.get? B.classes t) w = (.ok c, w) by rw [hc]; rfl)]
        exact h1
      rw [M.bind_ok this]
      exact i1
    · intro x hx u
      rcases List.mem_cons.1 hx with rfl | hx
      · rw [i4 x u hq hnd.1]
        cases hf : S.find x u with
        | none =>
          rw [h4 x u hq (.inr ?_), hnone x (by simp) u]
          · trivial
          · intro hm
            obtain ⟨m, hm1, rfl⟩ := List.mem_map.1 hm
            obtain ⟨u', hu'⟩ := (hS.all_iff x m).1 hm1
            rw [(hS.key_ok _ _ _ hu').2, hu'] at hf; cases hf
        | some m =>
          have := h3 m ((hS.all_iff x m).2 ⟨u, hf⟩)
          rw [(hS.key_ok _ _ _ hf).2] at this
          exact this
      · exact i3 x hx u
    · intro x u hqx hx
      rw [List.mem_cons, not_or] at hx
      rw [i4 x u hqx hx.2, h4 x u hqx (.inl hx.1)]

end

theorem valueOrder_nodup {A : Adapter V} (h1 : A.topLevel.Nodup) (h2 : Dict.WF A.classes) : (valueOrder A).Nodup := by
  unfold valueOrder
  rw [List.nodup_append]
  refine ⟨h1, List.filter_sublist.nodup h2, fun a ha b hb he => ?_⟩
  subst he
  have := (List.mem_filter.1 hb).2
  simp only [Bool.not_eq_true', List.contains_eq_mem, decide_eq_false_iff_not] at this
  exact this ha

theorem mem_valueOrder {A : Adapter V} (h : ∀ t ∈ A.topLevel, t ∈ Dict.keys A.classes) (t : String) : t ∈ valueOrder A ↔ t ∈ Dict.keys A.classes := by
  unfold valueOrder
  rw [List.mem_append, List.mem_filter]
  constructor
  · rintro (h1 | h1)
    · exact h t h1
    · exact h1.1
  · intro h1
    by_cases h2 : t ∈ A.topLevel
    · exact .inl h2
    · exact .inr ⟨h1, by simp [h2]⟩

/-- Loading the export of an adapter into a fresh one. -/
theorem load_export {A B : Adapter V} {I : World V E → Prop} {Q : String → Prop} (hL : Loads B I Q) {S : Snap V} (hS : S.Consistent)
    (hAB : SameClass A B) (hQ : ∀ t ∈ Dict.keys A.classes, Q t) {ts0 : List String} (hcov : ∀ t, (∃ u, S.find t u ≠ none) → t ∈ ts0)
    (hms : ∀ t u m, S.find t u = some m → Dict.get? A.classes t = some m.cls ∧ m.Complete ∧ m.cls.Valid ∧ PlainDefaults m ∧ Reparses m)
    {w : World V E} (hw : I w) (hfresh : ∀ t u, Q t → (snap B w).find t u = none) (ed : Bool) :
    ∃ w', loadFromDict B (ts0.map (fun t => (t, exportOf S ed t))) w = (.ok (), w') ∧ I w' ∧
      ∀ t u, Q t → RestoredO ed (S.find t u) ((snap B w').find t u) := by
  have hmem : ∀ t, t ∈ valueOrder B ↔ t ∈ Dict.keys A.classes := by
    intro t
    rw [mem_valueOrder (by rw [hAB.topLevel, hAB.classes]; exact hAB.top_known), hAB.classes]
  obtain ⟨w', h1, h2, h3, h4⟩ := load_types hL ed hS hcov (by rw [hAB.classes]; exact hms) (valueOrder B) w hw
    (valueOrder_nodup (by rw [hAB.topLevel]; exact hAB.top_nodup) (by rw [hAB.classes]; exact hAB.classes_wf))
    (fun t ht => ⟨hQ t ((hmem t).1 ht), by rw [hAB.classes]; exact (hmem t).1 ht⟩) (fun t ht u => hfresh t u (hQ t ((hmem t).1 ht)))
  refine ⟨w', h1, h2, fun t u hq => ?_⟩
  by_cases ht : t ∈ valueOrder B
  · exact h3 t ht u
  · rw [h4 t u hq ht, hfresh t u hq]
    cases hf : S.find t u with
    | none => trivial
    | some m => exact absurd ((hmem t).2 (Dict.mem_keys_iff.2 ⟨_, (hms t u m hf).1⟩)) ht

/-- A local store takes new objects. -/
theorem loads_local {B : Adapter V} {sid : Nat} (hB : B.ref.store = .local sid) (w0 : World V E) :
    Loads B (fun w : World V E => w.OK ∧ ∀ A : Adapter V, A.ref.store ≠ B.ref.store → snap A w = snap A w0) (fun _ => True) := by
  intro w m ⟨hw, hA⟩ _ hn
  have d1 := RRel.alloc w { m := m }
  have hs1 : ∀ A : Adapter V, snap A (alloc { m := m } w).2 = snap A w := d1.toDRel.snap_eq hw.refs_lt hw.tbl_wf
  have ok1 := OK.alloc hw { m := m }
  rw [alloc_bind]
  have hw1 : (alloc (E := E) { m := m } w).2 = { w.setObj w.next { m := m } with next := w.next + 1 } := rfl
  rw [← hw1]
  generalize hw1' : (alloc (E := E) { m := m } w).2 = w1 at hs1 ok1 d1
  have hm1 : (w1.heap w.next).m = m := by rw [← hw1']; simp [alloc, World.setObj]
  have hlt : w.next < w1.next := by rw [← hw1']; exact Nat.lt_succ_self _
  have hf1 : findRef w1 sid (w1.heap w.next).m.type (w1.heap w.next).m.uid = none := by
    rw [hm1]
    have h2 := hs1 B
    rw [← h2, snap, hB] at hn
    simpa using hn
  obtain ⟨w2, h1, f, ts, hh⟩ := add_local_none hB w.next w1 hf1
  rw [hm1] at ts
  have hold : ∀ s t u r, findRef w s t u = some r → r ≠ w.next := fun s t u r hr he => Nat.lt_irrefl _ (he ▸ hw.refs_lt _ _ _ _ hr)
  have hold1 : ∀ s t u r, findRef w1 s t u = some r → r ≠ w.next := fun s t u r hr => by
    rw [d1.toDRel.findRef_eq] at hr; exact hold s t u r hr
  refine ⟨w2, h1, ⟨?_, ?_⟩, ?_⟩
  · exact OK.of_set ok1 f hlt (by rw [hm1]; exact ts)
  · intro A hne
    rw [← hA A hne, ← hs1 A]
    unfold snap
    split
    · rename_i s hs
      have hss : s ≠ sid := fun he => hne (by rw [hs, hB, he])
      have htb : ∀ t, tbl w2 s t = tbl w1 s t := fun t => by rw [ts s t, if_neg (fun h => hss h.1)]
      congr 1
      · funext t
        rw [htb]
        exact List.map_congr_left fun r _ => f.heap_m r
      · funext t u
        unfold findRef
        rw [htb]
        cases Dict.get? (tbl w1 s t) u with
        | none => rfl
        | some r => simp only [Option.map_some]; rw [f.heap_m]
    · rw [f.redis_eq]
  · intro t u _
    rw [← hs1 B]
    simp only [snap, hB]
    rw [ts.findRef]
    by_cases hc : t = m.type ∧ u = m.uid
    · rw [if_pos ⟨rfl, hc⟩, if_pos hc]
      simp only [Option.map_some]; rw [f.heap_m, hm1]
    · rw [if_neg (fun h => hc h.2), if_neg hc]
      cases findRef w1 sid t u with
      | none => rfl
      | some r => simp only [Option.map_some]; rw [f.heap_m]

/-- A Redis store takes new objects. -/
theorem loads_redis {B : Adapter V} {sid : String} (hB : B.ref.store = .redis sid) (hsid : Plain sid) (w0 : World V E) :
    Loads B (fun w : World V E => w.OK ∧ RedisOK w ∧ (∀ A : Adapter V, (∃ s, A.ref.store = .local s) → snap A w = snap A w0) ∧
      ∀ (A : Adapter V) (s : String), A.ref.store = .redis s → Plain s → s ≠ sid → ∀ t u, Plain t → (snap A w).find t u = (snap A w0).find t u)
      Plain := by
  intro w m ⟨hw, hR, hA, hA'⟩ hq hn
  have d1 := RRel.alloc w { m := m }
  have hs1 : ∀ A : Adapter V, snap A (alloc { m := m } w).2 = snap A w := d1.toDRel.snap_eq hw.refs_lt hw.tbl_wf
  have ok1 := OK.alloc hw { m := m }
  rw [alloc_bind]
  have hw1 : (alloc (E := E) { m := m } w).2 = { w.setObj w.next { m := m } with next := w.next + 1 } := rfl
  rw [← hw1]
  have hm1 : ((alloc (E := E) { m := m } w).2.heap w.next).m = m := by simp [alloc, World.setObj]
  have hr1 : (alloc (E := E) { m := m } w).2.redis = w.redis := rfl
  generalize hw1' : (alloc (E := E) { m := m } w).2 = w1 at hs1 ok1 d1 hm1 hr1
  have hg : Dict.get? w1.redis (redisKey sid m.type m.uid) = none := by
    rw [hr1]; simpa [snap, hB, hq] using hn
  have hR1 : RedisOK w1 := ⟨hr1 ▸ hR.wf, hr1 ▸ hR.keys⟩
  refine ⟨{ w1 with redis := Dict.set w1.redis (redisKey sid m.type m.uid) { w1.heap w.next with adapter := none } }, ?_, ⟨?_, ?_, ?_, ?_⟩, ?_⟩
  · unfold add
    simp only [hB]
    rw [M.bind_ok (show deref w.next w1 = (.ok (w1.heap w.next), w1) from rfl), hm1, M.bind_ok (show M.read w1 = (.ok w1, w1) from rfl), hg]
    rfl
  · exact ⟨ok1.loc_wf, ok1.tbl_wf, ok1.refs_lt, ok1.key_ok⟩
  · exact redisOK_set hR1 _ hsid hq _
  · rintro A ⟨s, hs⟩
    rw [← hA A ⟨s, hs⟩, ← hs1 A]
    unfold snap
    rw [hs]; rfl
  · intro A s hs h1 h2 t u ht
    rw [← hA' A s hs h1 h2 t u ht, ← hs1 A]
    simp only [snap, hs, if_pos ht]
    rw [Dict.get?_set, if_neg]
    intro he
    exact h2 (redisKey_inj h1 hsid ht hq he.symm).1
  · intro t u ht
    rw [← hs1 B]
    simp only [snap, hB, if_pos ht]
    rw [Dict.get?_set]
    by_cases hc : t = m.type ∧ u = m.uid
    · rw [hc.1, hc.2, if_pos rfl, if_pos ⟨rfl, rfl⟩, Option.map_some]
      show some (w1.heap w.next).m = _
      rw [hm1]
    · rw [if_neg hc, if_neg]
      intro he
      exact hc (redisKey_inj hsid hsid ht hq he.symm).2

end DS
