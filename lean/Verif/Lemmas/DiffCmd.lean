import Verif.Spec.DiffCmd
import Verif.Props.Concurrent
import Verif.Lemmas.DiffErr
/-! What a diff can return when every reply of the server is one that some moment justifies. -/
set_option linter.unusedSectionVars false

namespace DS
variable {V α β γ : Type} [PyVal V]

/-- The results of a client each of whose commands is answered out of one of the contents `H`; a `SCAN` returns all keys that are in all of them and only
keys that are in one of them. -/
inductive Can (H : Dict (Obj V) → Prop) : Proc V α → Except Err α → Prop where
  | ret (r) : Can H (.ret r) r
  | cmd {c : Cmd V} {k : c.Reply → Proc V α} {r} (hc : ¬ c.isScan) (d) (hd : H d) (h : Can H (k (c.exec d).1) r) : Can H (.cmd c k) r
  | scan {pfx : String} {k : List String → Proc V α} {r} (ks : List String) (h1 : ∀ key, (∀ d, H d → Found d pfx key) → key ∈ ks)
      (h2 : ∀ key ∈ ks, ∃ d, H d ∧ Found d pfx key) (h : Can H (k ks) r) : Can H (.cmd (.scan pfx) k) r

theorem Can.mono {H H' : Dict (Obj V) → Prop} (hH : ∀ d, H d → H' d) {p : Proc V α} {r : Except Err α} (h : Can H p r) : Can H' p r := by
  induction h with
  | ret r => exact .ret r
  | cmd hc d hd _ ih => exact .cmd hc d (hH d hd) ih
  | scan ks h1 h2 _ ih =>
    exact .scan ks (fun key hk => h1 key (fun d hd => hk d (hH d hd))) (fun key hk => by
      obtain ⟨d, hd, hf⟩ := h2 key hk
      exact ⟨d, hH d hd, hf⟩) ih

/-- A client that has ended in an execution got its result in this way. -/
theorem exec_can {i : Nat} {p : Proc V α} {s s' : Sys V α} {l : List (Sys V α)} (he : Exec s l s') (h : s.cl i = .at p)
    {r : Except Err α} (hr : s'.cl i = .at (.ret r)) : Can (Moments l) p r := by
  induction p generalizing s l with
  | ret r0 =>
    rw [ended he h hr]
    exact .ret _
  | cmd c k ih =>
    cases c with
    | scan pfx =>
      obtain ⟨ks, s2, l2, h1, h2, h3, h4, h5⟩ := first_scan he h hr
      refine .scan ks (fun key hk => h4 key (fun s1 hs1 => hk _ ⟨s1, hs1, rfl⟩)) (fun key hk => ?_) ?_
      · obtain ⟨s1, hs1, hf⟩ := h5 key hk
        exact ⟨_, ⟨s1, hs1, rfl⟩, hf⟩
      · exact (ih ks h2 h1).mono (fun d ⟨s1, hs1, e⟩ => ⟨s1, h3 _ hs1, e⟩)
    | get key =>
      obtain ⟨s1, hs1, s2, l2, _, h2, h3, h4⟩ := first_cmd he h id hr
      exact .cmd id _ ⟨s1, hs1, rfl⟩ ((ih _ h3 h2).mono (fun d ⟨s1, hs1, e⟩ => ⟨s1, h4 _ hs1, e⟩))
    | set key o =>
      obtain ⟨s1, hs1, s2, l2, _, h2, h3, h4⟩ := first_cmd he h id hr
      exact .cmd id _ ⟨s1, hs1, rfl⟩ ((ih _ h3 h2).mono (fun d ⟨s1, hs1, e⟩ => ⟨s1, h4 _ hs1, e⟩))
    | exist key =>
      obtain ⟨s1, hs1, s2, l2, _, h2, h3, h4⟩ := first_cmd he h id hr
      exact .cmd id _ ⟨s1, hs1, rfl⟩ ((ih _ h3 h2).mono (fun d ⟨s1, hs1, e⟩ => ⟨s1, h4 _ hs1, e⟩))
    | del key =>
      obtain ⟨s1, hs1, s2, l2, _, h2, h3, h4⟩ := first_cmd he h id hr
      exact .cmd id _ ⟨s1, hs1, rfl⟩ ((ih _ h3 h2).mono (fun d ⟨s1, hs1, e⟩ => ⟨s1, h4 _ hs1, e⟩))

section
variable {H : Dict (Obj V) → Prop}

theorem Can.of_ret {r r' : Except Err α} (h : Can H (.ret r) r') : r = r' := by
  cases h; rfl

theorem Can.of_bind {p : Proc V α} {k : α → Proc V β} {r : Except Err β} (h : Can H (p.bind k) r) :
    (∃ e, r = .error e ∧ Can H p (.error e)) ∨ ∃ a, Can H p (.ok a) ∧ Can H (k a) r := by
  induction p with
  | ret r0 =>
    cases r0 with
    | ok a => exact .inr ⟨a, .ret _, h⟩
    | error e => exact .inl ⟨e, h.of_ret.symm, .ret _⟩
  | cmd c f ih =>
    cases h with
    | cmd hc d hd h =>
      rcases ih _ h with ⟨e, h1, h2⟩ | ⟨a, h1, h2⟩
      · exact .inl ⟨e, h1, .cmd hc d hd h2⟩
      · exact .inr ⟨a, .cmd hc d hd h1, h2⟩
    | scan ks g1 g2 h =>
      rcases ih _ h with ⟨e, h1, h2⟩ | ⟨a, h1, h2⟩
      · exact .inl ⟨e, h1, .scan ks g1 g2 h2⟩
      · exact .inr ⟨a, .scan ks g1 g2 h1, h2⟩

theorem Can.bind_ok {p : Proc V α} {k : α → Proc V β} {b : β} (h : Can H (p.bind k) (.ok b)) : ∃ a, Can H p (.ok a) ∧ Can H (k a) (.ok b) := by
  rcases h.of_bind with ⟨e, h1, _⟩ | h
  · cases h1
  · exact h
theorem Can.bind_error {p : Proc V α} {k : α → Proc V β} {e : Err} (h : Can H (p.bind k) (.error e)) :
    Can H p (.error e) ∨ ∃ a, Can H p (.ok a) ∧ Can H (k a) (.error e) := by
  rcases h.of_bind with ⟨e, h1, h2⟩ | h
  · cases h1; exact .inl h2
  · exact .inr h

theorem Can.mapEach_ok {f : γ → Proc V α} {l : List γ} {as : List α} (h : Can H (Proc.mapEach f l) (.ok as)) :
    (∀ a ∈ as, ∃ x ∈ l, Can H (f x) (.ok a)) ∧ ∀ x ∈ l, ∃ a ∈ as, Can H (f x) (.ok a) := by
  induction l generalizing as with
  | nil => cases h.of_ret; simp
  | cons x l ih =>
    obtain ⟨a, h1, h⟩ := h.bind_ok
    obtain ⟨as', h2, h⟩ := h.bind_ok
    cases h.of_ret
    obtain ⟨i1, i2⟩ := ih h2
    constructor
    · intro b hb
      rcases List.mem_cons.1 hb with rfl | hb
      · exact ⟨x, by simp, h1⟩
      · obtain ⟨y, hy, h⟩ := i1 b hb
        exact ⟨y, by simp [hy], h⟩
    · intro y hy
      rcases List.mem_cons.1 hy with rfl | hy
      · exact ⟨a, by simp, h1⟩
      · obtain ⟨b, hb, h⟩ := i2 y hy
        exact ⟨b, by simp [hb], h⟩
theorem Can.mapEach_error {f : γ → Proc V α} {l : List γ} {e : Err} (h : Can H (Proc.mapEach f l) (.error e)) : ∃ x ∈ l, Can H (f x) (.error e) := by
  induction l with
  | nil => cases h.of_ret
  | cons x l ih =>
    rcases h.bind_error with h | ⟨_, _, h⟩
    · exact ⟨x, by simp, h⟩
    · rcases h.bind_error with h | ⟨_, _, h⟩
      · obtain ⟨y, hy, h⟩ := ih h
        exact ⟨y, by simp [hy], h⟩
      · cases h.of_ret
theorem Can.forEach_error {f : γ → Proc V Unit} {l : List γ} {e : Err} (h : Can H (Proc.forEach f l) (.error e)) : ∃ x ∈ l, Can H (f x) (.error e) := by
  induction l with
  | nil => cases h.of_ret
  | cons x l ih =>
    rcases h.bind_error with h | ⟨_, _, h⟩
    · exact ⟨x, by simp, h⟩
    · obtain ⟨y, hy, h⟩ := ih h
      exact ⟨y, by simp [hy], h⟩

theorem Can.load {A : Adapter V} {key : String} {r : Except Err (Obj V)} (h : Can H (pLoad A key) r) :
    ∃ d, H d ∧ ((∃ o, Dict.get? d key = some o ∧ r = .ok { o with adapter := some A.ref }) ∨ (Dict.get? d key = none ∧ r = .error .objectNotFound)) := by
  cases h with
  | cmd hc d hd h =>
    refine ⟨d, hd, ?_⟩
    simp only [Cmd.exec] at h
    cases hg : Dict.get? d key with
    | none => rw [hg] at h; exact .inr ⟨rfl, h.of_ret.symm⟩
    | some o => rw [hg] at h; exact .inl ⟨o, rfl, h.of_ret.symm⟩

/-! ## Reading an adapter -/

theorem Can.byUids_ok (hH : ∃ d, H d) {v : View V} {us : List String} {t : String} {ms : List (Model V)} (h : Can H (v.byUids us t) (.ok ms)) :
    (∀ m ∈ ms, ∃ u ∈ us, Seen v H t u (some m)) ∧ ∀ u ∈ us, ∃ m ∈ ms, Seen v H t u (some m) := by
  cases v with
  | held all find =>
    obtain ⟨h1, h2⟩ := Can.mapEach_ok h
    have key : ∀ u m, Can H (match find t u with | some m => .ret (.ok m) | none => .ret (.error .objectNotFound) : Proc V (Model V)) (.ok m) →
        Seen (.held all find) H t u (some m) := by
      intro u m h
      obtain ⟨d, hd⟩ := hH
      refine ⟨d, hd, ?_⟩
      show find t u = some m
      cases hf : find t u with
      | none => rw [hf] at h; cases h.of_ret
      | some m' => rw [hf] at h; cases h.of_ret; rfl
    exact ⟨fun m hm => by obtain ⟨u, hu, h⟩ := h1 m hm; exact ⟨u, hu, key u m h⟩, fun u hu => by obtain ⟨m, hm, h⟩ := h2 u hu; exact ⟨m, hm, key u m h⟩⟩
  | server A sid =>
    obtain ⟨os, h1, h⟩ := Can.bind_ok h
    cases h.of_ret
    obtain ⟨h1, h2⟩ := Can.mapEach_ok h1
    have key : ∀ u (o : Obj V), Can H (pGet A sid t u) (.ok o) → Seen (.server A sid) H t u (some o.m) := by
      intro u o h
      obtain ⟨d, hd, ⟨o', ho, e⟩ | ⟨_, e⟩⟩ := Can.load h
      · cases e
        exact ⟨d, hd, by simp [View.find, ho]⟩
      · cases e
    constructor
    · intro m hm
      obtain ⟨o, ho, rfl⟩ := List.mem_map.1 hm
      obtain ⟨u, hu, h⟩ := h1 o ho
      exact ⟨u, hu, key u o h⟩
    · intro u hu
      obtain ⟨o, ho, h⟩ := h2 u hu
      exact ⟨o.m, List.mem_map.2 ⟨o, ho, rfl⟩, key u o h⟩

theorem Can.byUids_error (hH : ∃ d, H d) {v : View V} {us : List String} {t : String} {e : Err} (h : Can H (v.byUids us t) (.error e)) :
    e = .objectNotFound ∧ ∃ u ∈ us, Seen v H t u none := by
  cases v with
  | held all find =>
    obtain ⟨u, hu, h⟩ := Can.mapEach_error h
    cases hf : find t u with
    | none =>
      rw [hf] at h
      obtain ⟨d, hd⟩ := hH
      cases h.of_ret
      exact ⟨rfl, u, hu, d, hd, hf⟩
    | some m => rw [hf] at h; cases h.of_ret
  | server A sid =>
    rcases Can.bind_error h with h | ⟨_, _, h⟩
    · obtain ⟨u, hu, h⟩ := Can.mapEach_error h
      obtain ⟨d, hd, ⟨o', ho, e⟩ | ⟨ho, e⟩⟩ := Can.load h
      · cases e
      · cases e
        exact ⟨rfl, u, hu, d, hd, by simp [View.find, ho]⟩
    · cases h.of_ret

theorem Can.all_ok (hH : ∃ d, H d) {v : View V} (hv : v.Sound H) {t : String} (ht : v.Takes t) {ms : List (Model V)} (h : Can H (v.all t) (.ok ms)) :
    (∀ m ∈ ms, ∃ u, Seen v H t u (some m)) ∧ ∀ u, ¬ Seen v H t u none → ∃ m ∈ ms, Seen v H t u (some m) := by
  cases v with
  | held all find =>
    cases h.of_ret
    obtain ⟨d, hd⟩ := hH
    have hc : (⟨all, find⟩ : Snap V).Consistent := hv.lists
    constructor
    · intro m hm
      obtain ⟨u, hu⟩ := (hc.all_iff t m).1 hm
      exact ⟨u, d, hd, hu⟩
    · intro u hu
      cases hf : find t u with
      | none => exact absurd ⟨d, hd, hf⟩ hu
      | some m => exact ⟨m, (hc.all_iff t m).2 ⟨u, hf⟩, d, hd, hf⟩
  | server A sid =>
    have hs : Plain sid := hv.lists
    obtain ⟨os, h1, h⟩ := Can.bind_ok h
    cases h.of_ret
    cases h1 with
    | cmd hc => exact absurd trivial hc
    | scan ks g1 g2 h1 =>
      obtain ⟨h1, h2⟩ := Can.mapEach_ok h1
      have key : ∀ u (o : Obj V), Can H (pLoad A (redisKey sid t u)) (.ok o) → Seen (.server A sid) H t u (some o.m) := by
        intro u o h
        obtain ⟨d, hd, ⟨o', ho, e⟩ | ⟨_, e⟩⟩ := Can.load h
        · cases e
          exact ⟨d, hd, by simp [View.find, ho]⟩
        · cases e
      constructor
      · intro m hm
        obtain ⟨o, ho, rfl⟩ := List.mem_map.1 hm
        obtain ⟨k, hk, h⟩ := h1 o ho
        obtain ⟨d, _, hf⟩ := g2 k hk
        obtain ⟨u, rfl, _⟩ := (found_type hs ht).1 hf
        exact ⟨u, key u o h⟩
      · intro u hu
        have hk := g1 (redisKey sid t u) (fun d hd => (found_type hs ht).2 ⟨u, rfl, by
          rw [Dict.mem_keys_iff]
          cases hg : Dict.get? d (redisKey sid t u) with
          | none => exact absurd ⟨d, hd, by simp [View.find, hg]⟩ hu
          | some o => exact ⟨o, rfl⟩⟩)
        obtain ⟨o, ho, h⟩ := h2 _ hk
        exact ⟨o.m, List.mem_map.2 ⟨o, ho, rfl⟩, key u o h⟩

theorem Can.all_error {v : View V} (hv : v.Sound H) {t : String} (ht : v.Takes t) {e : Err} (h : Can H (v.all t) (.error e)) :
    e = .objectNotFound ∧ ∃ u, Unsteady v H t u := by
  cases v with
  | held all find => cases h.of_ret
  | server A sid =>
    have hs : Plain sid := hv.lists
    rcases Can.bind_error h with h | ⟨_, _, h⟩
    · cases h with
      | cmd hc => exact absurd trivial hc
      | scan ks g1 g2 h1 =>
        obtain ⟨k, hk, h⟩ := Can.mapEach_error h1
        obtain ⟨d', hd', hf⟩ := g2 k hk
        obtain ⟨u, rfl, hf⟩ := (found_type hs ht).1 hf
        obtain ⟨o, ho⟩ := Dict.mem_keys_iff.1 hf
        obtain ⟨d, hd, ⟨o', ho', e⟩ | ⟨ho', e⟩⟩ := Can.load h
        · cases e
        · cases e
          exact ⟨rfl, u, ⟨o.m, d', hd', by simp [View.find, ho]⟩, d, hd, by simp [View.find, ho']⟩
    · cases h.of_ret

/-- What `get_all` gives, by unique id. -/
theorem Can.all_byUid (hH : ∃ d, H d) {v : View V} (hv : v.Sound H) {t : String} (ht : v.Takes t) {ms : List (Model V)} (h : Can H (v.all t) (.ok ms)) (u : String) :
    Seen v H t u (Dict.get? (byUid ms) u) := by
  obtain ⟨h1, h2⟩ := h.all_ok hH hv ht
  cases hg : Dict.get? (byUid ms) u with
  | some m =>
    obtain ⟨hm, rfl⟩ := get?_byUid_some hg
    obtain ⟨u', hu'⟩ := h1 m hm
    rw [(hv.keys _ _ _ ht hu').2]
    exact hu'
  | none =>
    apply Classical.byContradiction
    intro hn
    obtain ⟨m, hm, hs⟩ := h2 u hn
    exact Dict.get?_eq_none_iff.1 hg (mem_keys_byUid.2 ⟨m, hm, (hv.keys _ _ _ ht hs).2⟩)

/-- What `get_by_uids` gives for the children, by unique id. -/
theorem Can.childModels_ok (hH : ∃ d, H d) {v : View V} (hv : v.Sound H) {o : Option (Model V)} {ct f : String} (ht : ∀ m, o = some m → v.Takes ct) {ms : List (Model V)}
    (hf : ∀ m, o = some m → Dict.get? m.cls.children ct = some f) (h : Can H (qChildModels v o ct f) (.ok ms)) (u : String) :
    SideSeen v H o ct u (Dict.get? (byUid ms) u) := by
  unfold qChildModels at h
  cases o with
  | none =>
    cases h.of_ret
    rfl
  | some m =>
    simp only at h
    cases hk : m.kidList f with
    | none => rw [hk] at h; cases h.of_ret
    | some us =>
      rw [hk] at h
      obtain ⟨h1, h2⟩ := h.byUids_ok hH
      have hl : listsO (some m) ct u = us.contains u := by simp [listsO, Model.lists, hf m rfl, hk]
      have ht := ht m rfl
      unfold SideSeen
      rw [hl]
      cases hg : Dict.get? (byUid ms) u with
      | some m' =>
        obtain ⟨hm, rfl⟩ := get?_byUid_some hg
        obtain ⟨u', hu', hs⟩ := h1 m' hm
        have e := (hv.keys _ _ _ ht hs).2
        subst e
        rw [if_pos (by simpa using hu')]
        exact ⟨by simp, hs⟩
      | none =>
        rw [if_neg]
        intro hu
        obtain ⟨m', hm', hs⟩ := h2 u (by simpa using hu)
        exact Dict.get?_eq_none_iff.1 hg (mem_keys_byUid.2 ⟨m', hm', (hv.keys _ _ _ ht hs).2⟩)

theorem Can.childModels_error (hH : ∃ d, H d) {v : View V} {o : Option (Model V)} {ct f : String} {e : Err}
    (hf : ∀ m, o = some m → Dict.get? m.cls.children ct = some f) (h : Can H (qChildModels v o ct f) (.error e)) :
    (e = .attributeError ∧ ∃ m, o = some m ∧ Dict.get? m.cls.children ct = some f ∧ m.kidList f = none) ∨
    (e = .objectNotFound ∧ ∃ u, listsO o ct u = true ∧ Seen v H ct u none) := by
  unfold qChildModels at h
  cases o with
  | none => cases h.of_ret
  | some m =>
    simp only at h
    cases hk : m.kidList f with
    | none => rw [hk] at h; cases h.of_ret; exact .inl ⟨rfl, m, rfl, hf m rfl, hk⟩
    | some us =>
      rw [hk] at h
      obtain ⟨h1, u, hu, hx⟩ := h.byUids_error hH
      refine .inr ⟨h1, u, ?_, hx⟩
      simp [listsO, Model.lists, hf m rfl, hk, hu]

end

/-! ## One level -/

section
variable {H : Dict (Obj V) → Prop} {C : DiffCtx V} {vs vd : View V}

theorem Can.pair_some {rec : List (Model V) → List (Model V) → Proc V (List (Elem V))}
    {s d : Option (Model V)} {e : Elem V} (h : Can H (qPair C vs vd rec s d) (.ok (some e))) :
    ∃ m mp kids, s.or d = some m ∧ qMapping s d = .ok mp ∧ Can H (qChildLoop vs vd rec s d mp []) (.ok kids) ∧ skipPair C.flags s d = false ∧
      e = { type := m.type, name := m.shortname, keys := m.identifiers,
                    srcName := C.src.name, dstName := C.dst.name,
                    src := s.map Model.attrs, dst := d.map Model.attrs, kids := kids } := by
  unfold qPair at h
  cases hm : s.or d with
  | none => rw [hm] at h; cases h.of_ret
  | some m =>
    rw [hm] at h
    simp only at h
    by_cases hh : skipPair C.flags s d = true
    · rw [if_pos hh] at h; cases h.of_ret
    · rw [if_neg hh] at h
      obtain ⟨mp, h1, h⟩ := h.bind_ok
      obtain ⟨kids, h2, h⟩ := h.bind_ok
      cases h.of_ret
      exact ⟨m, mp, kids, rfl, h1.of_ret, h2, by simpa using hh, rfl⟩

theorem Can.pairs_ok {rec : List (Model V) → List (Model V) → Proc V (List (Elem V))} {t : String}
    {R : Elem V → Pos V → Prop} (l : Dict (Option (Model V) × Option (Model V)))
    (hs : ∀ x ∈ l, x.2.1 ≠ none ∨ x.2.2 ≠ none)
    (hR : ∀ x ∈ l, ∀ e, ¬ Hidden C.flags x.2.1 x.2.2 → Can H (qPair C vs vd rec x.2.1 x.2.2) (.ok (some e)) → R e (toPos t x))
    {es : List (Elem V)} (h : Can H (qPairs (qPair C vs vd rec) (Dict.values l)) (.ok es)) :
    MatchAll R es ((l.filter (fun x => !skipPair C.flags x.2.1 x.2.2)).map (toPos t)) := by
  induction l generalizing es with
  | nil =>
    cases h.of_ret
    exact MatchAll.nil
  | cons x l ih =>
    obtain ⟨u, s, d⟩ := x
    simp only [Dict.values, List.map_cons] at h
    unfold qPairs at h
    obtain ⟨e?, h1, h2⟩ := h.bind_ok
    obtain ⟨es', h3, h4⟩ := h2.bind_ok
    have ih' := ih (fun x hx => hs x (List.mem_cons_of_mem _ hx)) (fun x hx => hR x (List.mem_cons_of_mem _ hx)) h3
    have hse : s ≠ none ∨ d ≠ none := hs (u, s, d) (by simp)
    have hRe := hR (u, s, d) (by simp)
    cases h4.of_ret
    by_cases hh : skipPair C.flags s d = true
    · rw [List.filter_cons_of_neg (by simp [hh])]
      unfold qPair at h1
      cases hm : s.or d with
      | none => rw [hm] at h1; cases h1.of_ret
      | some m =>
        rw [hm] at h1
        simp only [hh, if_true] at h1
        cases h1.of_ret
        exact ih'
    · rw [List.filter_cons_of_pos (by simp [hh])]
      have hv : ¬ Hidden C.flags s d := fun hc => hh ((skipPair_iff _ _ _ hse).2 hc)
      cases e? with
      | none =>
        exfalso
        unfold qPair at h1
        cases hm : s.or d with
        | none => rw [hm] at h1; cases h1.of_ret
        | some m =>
          rw [hm] at h1
          simp only at h1
          rw [if_neg hh] at h1
          obtain ⟨_, _, h1⟩ := h1.bind_ok
          obtain ⟨_, _, h1⟩ := h1.bind_ok
          cases h1.of_ret
      | some e => exact MatchAll.cons (hRe e hv h1) ih'

theorem Can.pairs_error {f : Option (Model V) → Option (Model V) → Proc V (Option (Elem V))}
    {l : List (Option (Model V) × Option (Model V))} {e : Err} (h : Can H (qPairs f l) (.error e)) :
    ∃ x ∈ l, Can H (f x.1 x.2) (.error e) := by
  induction l with
  | nil => cases h.of_ret
  | cons a l ih =>
    obtain ⟨s, d⟩ := a
    unfold qPairs at h
    rcases h.bind_error with h | ⟨_, _, h⟩
    · exact ⟨(s, d), by simp, h⟩
    · rcases h.bind_error with h | ⟨_, _, h⟩
      · obtain ⟨x, hx, hv⟩ := ih h
        exact ⟨x, List.mem_cons_of_mem _ hx, hv⟩
      · cases h.of_ret

/-- The places of a level of type `t`. -/
theorem Can.level_ok {n : Nat} {t : String} {R : Elem V → Pos V → Prop} {src dst : List (Model V)}
    (hR : ∀ u e, (Dict.get? (byUid src) u ≠ none ∨ Dict.get? (byUid dst) u ≠ none) → ¬ Hidden C.flags (Dict.get? (byUid src) u) (Dict.get? (byUid dst) u) →
      Can H (qPair C vs vd (qList C vs vd n) (Dict.get? (byUid src) u) (Dict.get? (byUid dst) u)) (.ok (some e)) →
      R e ⟨t, u, Dict.get? (byUid src) u, Dict.get? (byUid dst) u⟩)
    {es : List (Elem V)} (h : Can H (qList C vs vd (n + 1) src dst) (.ok es)) :
    ∃ ps : List (Pos V), MatchAll R es ps ∧ (ps.map Pos.uid).Nodup ∧
      ∀ c, c ∈ ps ↔ c.type = t ∧ c.src = Dict.get? (byUid src) c.uid ∧ c.dst = Dict.get? (byUid dst) c.uid ∧ (c.src ≠ none ∨ c.dst ≠ none) ∧ c.Visible C.flags := by
  unfold qList at h
  obtain ⟨_, _, h⟩ := h.bind_ok
  have hmem : ∀ x ∈ combine src dst, x.2.1 = Dict.get? (byUid src) x.1 ∧ x.2.2 = Dict.get? (byUid dst) x.1 ∧ (x.2.1 ≠ none ∨ x.2.2 ≠ none) := by
    intro x hx
    obtain ⟨u, s, d⟩ := x
    exact mem_combine.1 hx
  refine ⟨_, Can.pairs_ok (t := t) (R := R) (combine src dst) (fun x hx => (hmem x hx).2.2) ?_ h, ?_, ?_⟩
  · intro x hx e hvis hp
    obtain ⟨u, s, d⟩ := x
    obtain ⟨h1, h2, h3⟩ := hmem _ hx
    simp only at h1 h2 h3 hvis hp
    subst h1; subst h2
    exact hR u e h3 hvis hp
  · rw [List.map_map]
    have : (Pos.uid ∘ toPos (V := V) t) = Prod.fst := rfl
    rw [this]
    exact List.Nodup.sublist (List.Sublist.map _ List.filter_sublist) (combine_wf src dst)
  · intro c
    rw [List.mem_map]
    constructor
    · rintro ⟨x, hx, rfl⟩
      obtain ⟨hx, hsk⟩ := List.mem_filter.1 hx
      obtain ⟨h1, h2, h3⟩ := hmem _ hx
      refine ⟨rfl, h1, h2, h3, ?_⟩
      intro hh
      rw [(skipPair_iff _ _ _ h3).2 hh] at hsk
      simp at hsk
    · rintro ⟨h1, h2, h3, h4, h5⟩
      refine ⟨(c.uid, c.src, c.dst), List.mem_filter.2 ⟨mem_combine.2 ⟨h2, h3, h4⟩, ?_⟩, ?_⟩
      · have : ¬ skipPair C.flags c.src c.dst = true := fun hc => h5 ((skipPair_iff _ _ _ h4).1 hc)
        simp [this]
      · cases c; simp only at h1; subst h1; rfl

theorem Can.level_error {n : Nat} {src dst : List (Model V)} {e : Err} (h : Can H (qList C vs vd (n + 1) src dst) (.error e)) :
    ∃ u, (Dict.get? (byUid src) u ≠ none ∨ Dict.get? (byUid dst) u ≠ none) ∧ (validatePair (Dict.get? (byUid src) u, Dict.get? (byUid dst) u) = .error e ∨
      (¬ Hidden C.flags (Dict.get? (byUid src) u) (Dict.get? (byUid dst) u) ∧
        Can H (qPair C vs vd (qList C vs vd n) (Dict.get? (byUid src) u) (Dict.get? (byUid dst) u)) (.error e))) := by
  unfold qList at h
  rcases h.bind_error with h | ⟨_, _, h⟩
  · obtain ⟨x, hx, hv⟩ := validatePairs_error h.of_ret
    obtain ⟨⟨u, s, d⟩, hy, rfl⟩ := List.mem_map.1 hx
    obtain ⟨h1, h2, h3⟩ := mem_combine.1 hy
    simp only at hv
    subst h1; subst h2
    exact ⟨u, h3, .inl hv⟩
  · obtain ⟨x, hx, hv⟩ := h.pairs_error
    obtain ⟨⟨u, s, d⟩, hy, rfl⟩ := List.mem_map.1 hx
    obtain ⟨h1, h2, h3⟩ := mem_combine.1 hy
    simp only at hv
    refine ⟨u, by rw [← h1, ← h2]; exact h3, .inr ?_⟩
    rw [← h1, ← h2]
    refine ⟨?_, hv⟩
    intro hh
    have := (skipPair_iff _ _ _ h3).2 hh
    unfold qPair at hv
    obtain ⟨m, hm⟩ := or_some_of (p := ⟨"", u, s, d⟩) h3
    simp only at hm
    rw [hm] at hv
    simp only [this, if_true] at hv
    cases hv.of_ret

/-! ## The tree -/

/-- Where the objects at a place come from. -/
structure AtHand (vs vd : View V) (H : Dict (Obj V) → Prop) (p : Pos V) : Prop where
  src : ∀ m, p.src = some m → vs.Takes p.type ∧ Seen vs H p.type p.uid (some m)
  dst : ∀ m, p.dst = some m → vd.Takes p.type ∧ Seen vd H p.type p.uid (some m)

theorem SideSeen.some {v : View V} {o : Option (Model V)} {ct u : String} {m : Model V} (h : SideSeen v H o ct u (some m)) :
    listsO o ct u = true ∧ Seen v H ct u (some m) := by
  unfold SideSeen at h
  split at h
  · exact ⟨by assumption, h.2⟩
  · cases h
theorem SideSeen.listed {v : View V} {o : Option (Model V)} {ct u : String} {x : Option (Model V)} (h : SideSeen v H o ct u x) :
    x ≠ none ↔ listsO o ct u = true := by
  unfold SideSeen at h
  split at h
  · exact ⟨fun _ => by assumption, fun _ => h.1⟩
  · rename_i hl
    constructor
    · intro hx; exact absurd h hx
    · intro hx; exact absurd hx hl

theorem AtHand.mapping (hR : Readable C vs vd H) {p : Pos V} (hp : AtHand vs vd H p) {mp : Dict String} (h : qMapping p.src p.dst = .ok mp) :
    Dict.WF mp ∧ (∀ ct f, (ct, f) ∈ mp → ∀ m, p.src = some m → Dict.get? m.cls.children ct = some f) ∧
    (∀ ct f, (ct, f) ∈ mp → ∀ m, p.dst = some m → Dict.get? m.cls.children ct = some f) ∧
    (∀ ct, ct ∈ Dict.keys mp ↔ comparesType p.src p.dst ct) ∧
    (∀ ct ∈ Dict.keys mp, (∀ m, p.src = some m → vs.Takes ct) ∧ (∀ m, p.dst = some m → vd.Takes ct)) := by
  obtain ⟨t, u, s, d⟩ := p
  have hks : ∀ ct, comparesType s d ct → (∀ m, s = some m → vs.Takes ct) ∧ (∀ m, d = some m → vd.Takes ct) := by
    intro ct hc
    exact ⟨fun m hm => (hR.src.kids _ _ _ (hp.src m hm).1 (hp.src m hm).2).2 ct (hc.1 m hm), fun m hm => (hR.dst.kids _ _ _ (hp.dst m hm).1 (hp.dst m hm).2).2 ct (hc.2 m hm)⟩
  simp only at h hp ⊢
  suffices h5 : Dict.WF mp ∧ (∀ ct f, (ct, f) ∈ mp → ∀ m, s = some m → Dict.get? m.cls.children ct = some f) ∧
      (∀ ct f, (ct, f) ∈ mp → ∀ m, d = some m → Dict.get? m.cls.children ct = some f) ∧
      (∀ ct, ct ∈ Dict.keys mp ↔ comparesType s d ct) from ⟨h5.1, h5.2.1, h5.2.2.1, h5.2.2.2, fun ct hct => hks ct ((h5.2.2.2 ct).1 hct)⟩
  cases s with
  | none => cases d with
    | none => cases h
    | some d =>
      cases h
      have hd := (hR.dst.kids _ _ _ (hp.dst d rfl).1 (hp.dst d rfl).2).1
      refine ⟨hd, by simp, ?_, ?_⟩
      · rintro ct f hm m hm'; cases hm'; exact Dict.get?_of_mem hd hm
      · intro ct; simp [comparesType]
  | some s =>
    have hs := (hR.src.kids _ _ _ (hp.src s rfl).1 (hp.src s rfl).2).1
    cases d with
    | none =>
      cases h
      refine ⟨hs, ?_, by simp, ?_⟩
      · rintro ct f hm m hm'; cases hm'; exact Dict.get?_of_mem hs hm
      · intro ct; simp [comparesType]
    | some d =>
      cases h
      have hd := (hR.dst.kids _ _ _ (hp.dst d rfl).1 (hp.dst d rfl).2).1
      refine ⟨Dict.wf_filter hs (fun k => Dict.has d.cls.children k), ?_, ?_, ?_⟩
      · rintro ct f hm m hm'; cases hm'; exact Dict.get?_of_mem hs (List.mem_filter.1 hm).1
      · rintro ct f hm m hm'
        cases hm'
        obtain ⟨hm1, hm2⟩ := List.mem_filter.1 hm
        obtain ⟨f', hf'⟩ := Dict.mem_keys_iff.1 (Dict.has_iff.1 hm2)
        rw [hf', hR.fields _ _ _ _ (hp.src s rfl).2 (hp.dst d rfl).2 ct f f' (Dict.get?_of_mem hs hm1) hf']
      · intro ct
        rw [Dict.keys_filter (fun k => Dict.has d.cls.children k), List.mem_filter, Dict.has_iff]
        simp [comparesType]

theorem AtHand.type_or (hR : Readable C vs vd H) {p : Pos V} (hp : AtHand vs vd H p) {m : Model V} (hm : p.src.or p.dst = some m) : m.type = p.type := by
  cases hs : p.src with
  | some s => rw [hs] at hm; cases hm; exact (hR.src.keys _ _ _ (hp.src _ hs).1 (hp.src _ hs).2).1
  | none =>
    rw [hs] at hm
    have hm : p.dst = some m := by simpa using hm
    exact (hR.dst.keys _ _ _ (hp.dst _ hm).1 (hp.dst _ hm).2).1

theorem AtHand.same_type (hR : Readable C vs vd H) {p : Pos V} (hp : AtHand vs vd H p) (s d : Model V) (h1 : p.src = some s) (h2 : p.dst = some d) : s.type = d.type := by
  rw [(hR.src.keys _ _ _ (hp.src s h1).1 (hp.src s h1).2).1, (hR.dst.keys _ _ _ (hp.dst d h2).1 (hp.dst d h2).2).1]

theorem AtHand.header (hR : Readable C vs vd H) {p : Pos V} (hp : AtHand vs vd H p) {m : Model V} (hm : p.src.or p.dst = some m) (kids : List (Elem V)) :
    Header C.src C.dst { type := m.type, name := m.shortname, keys := m.identifiers, srcName := C.src.name, dstName := C.dst.name,
                         src := p.src.map Model.attrs, dst := p.dst.map Model.attrs, kids := kids } p :=
  ⟨hp.type_or hR hm, rfl, rfl, fun m' hm' => by rw [hm] at hm'; cases hm'; exact ⟨rfl, rfl⟩, rfl, rfl⟩

/-- The places of one child type below a place. -/
theorem childSeen_of {p : Pos V} {ct u : String} {x y : Option (Model V)} (hct : comparesType p.src p.dst ct)
    (h1 : SideSeen vs H p.src ct u x) (h2 : SideSeen vd H p.dst ct u y) (hs : x ≠ none ∨ y ≠ none) : ChildSeen vs vd H p ⟨ct, u, x, y⟩ :=
  ⟨hct, hs.imp h1.listed.1 h2.listed.1, h1, h2⟩

theorem AtHand.child {p c : Pos V} (ht : (∀ m, p.src = some m → vs.Takes c.type) ∧ (∀ m, p.dst = some m → vd.Takes c.type)) (h : ChildSeen vs vd H p c) : AtHand vs vd H c := by
  constructor
  · intro m hm
    have hs := h.src
    rw [hm] at hs
    obtain ⟨h1, h2⟩ := hs.some
    refine ⟨?_, h2⟩
    cases hp : p.src with
    | none => rw [hp] at h1; cases h1
    | some m' => exact ht.1 m' hp
  · intro m hm
    have hs := h.dst
    rw [hm] at hs
    obtain ⟨h1, h2⟩ := hs.some
    refine ⟨?_, h2⟩
    cases hp : p.dst with
    | none => rw [hp] at h1; cases h1
    | some m' => exact ht.2 m' hp

theorem Can.childLoop_ok (hH : ∃ d, H d) (hRd : Readable C vs vd H) {n : Nat} {R : Elem V → Pos V → Prop} {p : Pos V} (mapping : Dict String) (hwf : Dict.WF mapping)
    (hms : ∀ ct f, (ct, f) ∈ mapping → ∀ m, p.src = some m → Dict.get? m.cls.children ct = some f)
    (hmd : ∀ ct f, (ct, f) ∈ mapping → ∀ m, p.dst = some m → Dict.get? m.cls.children ct = some f)
    (hmc : ∀ ct ∈ Dict.keys mapping, comparesType p.src p.dst ct)
    (hmt : ∀ ct ∈ Dict.keys mapping, (∀ m, p.src = some m → vs.Takes ct) ∧ (∀ m, p.dst = some m → vd.Takes ct))
    (hR : ∀ c e, AtHand vs vd H c → Can H (qPair C vs vd (qList C vs vd n) c.src c.dst) (.ok (some e)) → R e c)
    {kids0 kids : List (Elem V)} (h : Can H (qChildLoop vs vd (qList C vs vd (n + 1)) p.src p.dst mapping kids0) (.ok kids)) :
    ∃ es ps, kids = kids0 ++ es ∧ MatchAll R es ps ∧ DistinctPos ps ∧
      (∀ c ∈ ps, c.type ∈ Dict.keys mapping ∧ ChildSeen vs vd H p c ∧ c.Visible C.flags) ∧
      ∀ ct ∈ Dict.keys mapping, ∀ u, (listsO p.src ct u = true ∨ listsO p.dst ct u = true) →
        ∃ c, c.type = ct ∧ c.uid = u ∧ ChildSeen vs vd H p c ∧ (c ∈ ps ∨ Hidden C.flags c.src c.dst) := by
  induction mapping generalizing kids0 with
  | nil =>
    cases h.of_ret
    exact ⟨[], [], by simp, MatchAll.nil, List.Pairwise.nil, by simp, by simp [Dict.keys]⟩
  | cons x rest ih =>
    obtain ⟨ct, f⟩ := x
    have hkeys : Dict.keys ((ct, f) :: rest) = ct :: Dict.keys rest := rfl
    unfold qChildLoop at h
    obtain ⟨so, h1, h⟩ := h.bind_ok
    obtain ⟨do', h2, h⟩ := h.bind_ok
    obtain ⟨es, h3, h⟩ := h.bind_ok
    obtain ⟨kids', h4, h⟩ := h.bind_ok
    have h4 := addElems_ok h4.of_ret
    subst h4
    have hwf' : ct ∉ Dict.keys rest ∧ Dict.WF rest := List.nodup_cons.1 hwf
    have hct := hmc ct (by simp [hkeys])
    have hcht := hmt ct (by simp [hkeys])
    have hss := h1.childModels_ok hH hRd.src hcht.1 (hms ct f (by simp))
    have hsd := h2.childModels_ok hH hRd.dst hcht.2 (hmd ct f (by simp))
    obtain ⟨ps1, m1, n1, i1⟩ := Can.level_ok (t := ct) (R := R) (fun u e hs _ hp =>
      hR ⟨ct, u, _, _⟩ e (AtHand.child (p := p) hcht (childSeen_of hct (hss u) (hsd u) hs)) hp) h3
    obtain ⟨es2, ps2, rfl, m2, n2, i2, v2⟩ := ih hwf'.2
      (fun ct' f' hm => hms ct' f' (List.mem_cons_of_mem _ hm)) (fun ct' f' hm => hmd ct' f' (List.mem_cons_of_mem _ hm))
      (fun ct' hk => hmc ct' (by rw [hkeys]; exact List.mem_cons_of_mem _ hk)) (fun ct' hk => hmt ct' (by rw [hkeys]; exact List.mem_cons_of_mem _ hk)) h
    refine ⟨es ++ es2, ps1 ++ ps2, by simp, m1.append m2, ?_, ?_, ?_⟩
    · unfold DistinctPos
      rw [List.pairwise_append]
      refine ⟨(List.pairwise_map.1 n1).imp (fun hne hc => hne hc.2), n2, ?_⟩
      intro a ha b hb hc
      have ha' := ((i1 a).1 ha).1
      have hb' := (i2 b hb).1
      rw [← hc.1, ha'] at hb'
      exact hwf'.1 hb'
    · intro c hc
      rcases List.mem_append.1 hc with hc | hc
      · obtain ⟨g1, g2, g3, g4, g5⟩ := (i1 c).1 hc
        obtain ⟨t, u, s, d⟩ := c
        simp only at g1 g2 g3 g4
        subst g1; subst g2; subst g3
        exact ⟨by simp [hkeys], childSeen_of hct (hss u) (hsd u) g4, g5⟩
      · obtain ⟨g1, g2⟩ := i2 c hc
        exact ⟨by rw [hkeys]; exact List.mem_cons_of_mem _ g1, g2⟩
    · intro ct' hct' u hu
      rw [hkeys] at hct'
      by_cases he : ct' = ct
      · subst he
        have hside := hu.imp (hss u).listed.2 (hsd u).listed.2
        refine ⟨⟨ct', u, _, _⟩, rfl, rfl, childSeen_of hct (hss u) (hsd u) hside, ?_⟩
        by_cases hh : Hidden C.flags (Dict.get? (byUid so) u) (Dict.get? (byUid do') u)
        · exact .inr hh
        · exact .inl (List.mem_append_left _ ((i1 _).2 ⟨rfl, rfl, rfl, hside, hh⟩))
      · rcases List.mem_cons.1 hct' with hc | hc
        · exact absurd hc he
        · obtain ⟨c, g1, g2, g3, g4⟩ := v2 ct' hc u hu
          exact ⟨c, g1, g2, g3, g4.imp (fun h => List.mem_append_right _ h) id⟩

theorem Can.pair_reports (hH : ∃ d, H d) (hRd : Readable C vs vd H) (n : Nat) {p : Pos V} (hp : AtHand vs vd H p) {e : Elem V}
    (h : Can H (qPair C vs vd (qList C vs vd n) p.src p.dst) (.ok (some e))) : Reports C vs vd H e p := by
  induction n generalizing p e with
  | zero =>
    obtain ⟨m, mp, kids, hm, hmp, hl, _, rfl⟩ := h.pair_some
    obtain ⟨w1, w2, w3, w4, w5⟩ := hp.mapping hRd hmp
    have hnil : mp = [] := by
      cases mp with
      | nil => rfl
      | cons x rest =>
        obtain ⟨ct, f⟩ := x
        unfold qChildLoop at hl
        obtain ⟨so, h1, hl⟩ := hl.bind_ok
        obtain ⟨do', h2, hl⟩ := hl.bind_ok
        obtain ⟨es, h3, hl⟩ := hl.bind_ok
        cases h3.of_ret
    subst hnil
    cases hl.of_ret
    have hno : ∀ ct, ¬ comparesType p.src p.dst ct := fun ct hc => by
      have := (w4 ct).2 hc; simp [Dict.keys] at this
    exact .mk [] (hp.header hRd hm _) List.Pairwise.nil (by simp) (fun ct u hc => absurd hc (hno ct)) rfl (by simp)
  | succ n ih =>
    obtain ⟨m, mp, kids, hm, hmp, hl, _, rfl⟩ := h.pair_some
    obtain ⟨w1, w2, w3, w4, w5⟩ := hp.mapping hRd hmp
    obtain ⟨es, ps, hk, hM, hd, hi, hc⟩ := Can.childLoop_ok hH hRd (R := Reports C vs vd H) mp w1 w2 w3 (fun ct => (w4 ct).1) w5
      (fun c e hc hpp => ih hc hpp) hl
    rw [List.nil_append] at hk
    subst hk
    exact .mk ps (hp.header hRd hm _) hd (fun c hc => (hi c hc).2) (fun ct u hct hl => hc ct ((w4 ct).2 hct) u hl) hM.1 hM.2

theorem AtHand.top (hRd : Readable C vs vd H) {c : Pos V} (h : TopSeen C vs vd H c) : AtHand vs vd H c :=
  ⟨fun m hm => ⟨hRd.src_types _ h.src_top, hm ▸ h.src⟩, fun m hm => ⟨hRd.dst_types _ h.dst_top, hm ▸ h.dst⟩⟩

theorem Can.types_ok (hH : ∃ d, H d) (hRd : Readable C vs vd H) (n : Nat) (ts : List String) (hts : ts.Nodup)
    (hs : ∀ t ∈ ts, t ∈ C.src.topLevel) (hd : ∀ t ∈ ts, t ∈ C.dst.topLevel) {kids0 es : List (Elem V)} (h : Can H (qTypes C vs vd n ts kids0) (.ok es)) :
    ∃ es' ps, es = kids0 ++ es' ∧ MatchAll (Reports C vs vd H) es' ps ∧ DistinctPos ps ∧
      (∀ c ∈ ps, c.type ∈ ts ∧ TopSeen C vs vd H c ∧ c.Visible C.flags) ∧
      ∀ t ∈ ts, ∀ u, (¬ Seen vs H t u none ∨ ¬ Seen vd H t u none) →
        ∃ c, c.type = t ∧ c.uid = u ∧ TopSeen C vs vd H c ∧ (c ∈ ps ∨ Hidden C.flags c.src c.dst) := by
  induction ts generalizing kids0 with
  | nil => cases h.of_ret; exact ⟨[], [], by simp, MatchAll.nil, List.Pairwise.nil, by simp, by simp⟩
  | cons t ts ih =>
    unfold qTypes at h
    obtain ⟨so, h1, h⟩ := h.bind_ok
    obtain ⟨do', h2, h⟩ := h.bind_ok
    obtain ⟨es1, h3, h⟩ := h.bind_ok
    obtain ⟨kids', h4, h⟩ := h.bind_ok
    have h4 := addElems_ok h4.of_ret
    subst h4
    have hst := hs t (by simp)
    have hdt := hd t (by simp)
    have hss := h1.all_byUid hH hRd.src (hRd.src_types t hst)
    have hsd := h2.all_byUid hH hRd.dst (hRd.dst_types t hdt)
    obtain ⟨es2, ps2, rfl, m2, n2, i2, v2⟩ := ih (List.nodup_cons.1 hts).2 (fun t' hm => hs t' (List.mem_cons_of_mem _ hm)) (fun t' hm => hd t' (List.mem_cons_of_mem _ hm)) h
    have top : ∀ u, (Dict.get? (byUid so) u ≠ none ∨ Dict.get? (byUid do') u ≠ none) → TopSeen C vs vd H ⟨t, u, Dict.get? (byUid so) u, Dict.get? (byUid do') u⟩ :=
      fun u hside => ⟨hst, hdt, hss u, hsd u, hside⟩
    cases n with
    | zero => cases h3.of_ret
    | succ n =>
      obtain ⟨ps1, m1, n1, i1⟩ := Can.level_ok (t := t) (R := Reports C vs vd H) (fun u e hside _ hp =>
        Can.pair_reports hH hRd n (p := ⟨t, u, _, _⟩) (AtHand.top hRd (top u hside)) hp) h3
      refine ⟨es1 ++ es2, ps1 ++ ps2, by simp, m1.append m2, ?_, ?_, ?_⟩
      · unfold DistinctPos
        rw [List.pairwise_append]
        refine ⟨(List.pairwise_map.1 n1).imp (fun hne hc => hne hc.2), n2, ?_⟩
        intro a ha b hb hc
        have ha' := ((i1 a).1 ha).1
        have hb' := (i2 b hb).1
        rw [← hc.1, ha'] at hb'
        exact (List.nodup_cons.1 hts).1 hb'
      · intro c hc
        rcases List.mem_append.1 hc with hc | hc
        · obtain ⟨g1, g2, g3, g4, g5⟩ := (i1 c).1 hc
          obtain ⟨t', u, s, d⟩ := c
          simp only at g1 g2 g3 g4
          subst g1; subst g2; subst g3
          exact ⟨by simp, top u g4, g5⟩
        · obtain ⟨g1, g2⟩ := i2 c hc
          exact ⟨List.mem_cons_of_mem _ g1, g2⟩
      · intro t' ht' u hu
        by_cases he : t' = t
        · subst he
          have hside : Dict.get? (byUid so) u ≠ none ∨ Dict.get? (byUid do') u ≠ none := by
            refine hu.imp (fun hn hx => hn ?_) (fun hn hx => hn ?_)
            · have := hss u; rwa [hx] at this
            · have := hsd u; rwa [hx] at this
          refine ⟨⟨t', u, _, _⟩, rfl, rfl, top u hside, ?_⟩
          by_cases hh : Hidden C.flags (Dict.get? (byUid so) u) (Dict.get? (byUid do') u)
          · exact .inr hh
          · exact .inl (List.mem_append_left _ ((i1 _).2 ⟨rfl, rfl, rfl, hside, hh⟩))
        · rcases List.mem_cons.1 ht' with hc | hc
          · exact absurd hc he
          · obtain ⟨c, g1, g2, g3, g4⟩ := v2 t' hc u hu
            exact ⟨c, g1, g2, g3, g4.imp (fun h => List.mem_append_right _ h) id⟩

theorem Can.diff_ok (hH : ∃ d, H d) (hRd : Readable C vs vd H) {n : Nat} {es : List (Elem V)} (h : Can H (qDiff C vs vd n) (.ok es)) : ReportsTop C vs vd H es := by
  unfold qDiff at h
  obtain ⟨_, _, h⟩ := h.bind_ok
  obtain ⟨_, _, h⟩ := h.bind_ok
  obtain ⟨_, _, h⟩ := h.bind_ok
  obtain ⟨es', ps, he, m, hd, hi, hc⟩ := Can.types_ok hH hRd n _ (intersection_nodup hRd.top_nodup) (fun t hm => (mem_intersection.1 hm).2)
    (fun t hm => (mem_intersection.1 hm).1) h
  rw [List.nil_append] at he
  subst he
  exact ⟨ps, hd, fun c hc => (hi c hc).2, fun t u h1 h2 hu => hc t (mem_intersection.2 ⟨h2, h1⟩) u hu, m.1, m.2⟩

/-! ## Exceptions -/

theorem Can.pair_named (hR : Readable C vs vd H) {rec : List (Model V) → List (Model V) → Proc V (List (Elem V))} {p : Pos V} (hp : AtHand vs vd H p) {e : Elem V}
    (h : Can H (qPair C vs vd rec p.src p.dst) (.ok (some e))) : NamedAt e p := by
  obtain ⟨m, mp, kids, hm, _, _, _, rfl⟩ := h.pair_some
  refine ⟨hp.type_or hR hm, ?_, m, hm⟩
  intro m' hm'
  rw [hm] at hm'; cases hm'; rfl

theorem Can.childLoop_error (hH : ∃ d, H d) (hRd : Readable C vs vd H) {N n k : Nat} {p : Pos V}
    (hc : Met C vs vd H k p) (hv : p.Visible C.flags) (hN : N = k + 1 + n)
    (ih : ∀ (m : Nat) (q : Pos V), n = m + 1 → AtHand vs vd H q → Met C vs vd H (k + 1) q →
      q.Visible C.flags → (q.src ≠ none ∨ q.dst ≠ none) → ∀ e, Can H (qPair C vs vd (qList C vs vd m) q.src q.dst) (.error e) → DiffTrouble C vs vd H N e)
    (mapping : Dict String) (hwf : Dict.WF mapping)
    (hms : ∀ ct f, (ct, f) ∈ mapping → ∀ m, p.src = some m → Dict.get? m.cls.children ct = some f)
    (hmd : ∀ ct f, (ct, f) ∈ mapping → ∀ m, p.dst = some m → Dict.get? m.cls.children ct = some f)
    (hmc : ∀ ct, ct ∈ Dict.keys mapping → comparesType p.src p.dst ct)
    (hmt : ∀ ct ∈ Dict.keys mapping, (∀ m, p.src = some m → vs.Takes ct) ∧ (∀ m, p.dst = some m → vd.Takes ct))
    {kids0 : List (Elem V)} (hu0 : UniqueNames kids0) (ht0 : ∀ a ∈ kids0, a.type ∉ Dict.keys mapping)
    {e : Err} (h : Can H (qChildLoop vs vd (qList C vs vd n) p.src p.dst mapping kids0) (.error e)) :
    DiffTrouble C vs vd H N e := by
  induction mapping generalizing kids0 with
  | nil => cases h.of_ret
  | cons x rest ih' =>
    obtain ⟨ct, f⟩ := x
    have hct : comparesType p.src p.dst ct := hmc ct (by simp [Dict.keys])
    have hcht := hmt ct (by simp [Dict.keys])
    have hwf' : ct ∉ Dict.keys rest ∧ Dict.WF rest := List.nodup_cons.1 hwf
    unfold qChildLoop at h
    rcases h.bind_error with h | ⟨so, h1, h⟩
    · rcases h.childModels_error hH (hms ct f (by simp)) with ⟨rfl, m, h1, h2, h3⟩ | ⟨rfl, u, h1, h2⟩
      · exact ⟨k, p, hc, hv, ct, f, m, hct, .inl h1, h2, h3⟩
      · exact .inr ⟨k, p, ct, u, hc, hv, hct, .inl ⟨h1, h2⟩⟩
    rcases h.bind_error with h | ⟨do', h2, h⟩
    · rcases h.childModels_error hH (hmd ct f (by simp)) with ⟨rfl, m, h1, h2, h3⟩ | ⟨rfl, u, h1, h2⟩
      · exact ⟨k, p, hc, hv, ct, f, m, hct, .inr h1, h2, h3⟩
      · exact .inr ⟨k, p, ct, u, hc, hv, hct, .inr ⟨h1, h2⟩⟩
    have hss := h1.childModels_ok hH hRd.src hcht.1 (hms ct f (by simp))
    have hsd := h2.childModels_ok hH hRd.dst hcht.2 (hmd ct f (by simp))
    rcases h.bind_error with h | ⟨es, h3, h⟩
    · cases n with
      | zero =>
        cases h.of_ret
        exact .inr ⟨k, p, hN, hc, hv, ct, hct⟩
      | succ n =>
        obtain ⟨u, hs, hcase⟩ := h.level_error
        have hch := childSeen_of (p := p) hct (hss u) (hsd u) hs
        have hheld := AtHand.child (p := p) hcht hch
        rcases hcase with hval | ⟨hvis, hpp⟩
        · obtain ⟨rfl, hun⟩ := validatePair_error (p := ⟨ct, u, _, _⟩) hval (hheld.same_type hRd)
          exact ⟨_, _, .child hc hv hch, hun⟩
        · exact ih n _ rfl hheld (.child hc hv hch) hvis hs e hpp
    cases n with
    | zero => cases h3.of_ret
    | succ n =>
      obtain ⟨ps, hM, hnd, hi⟩ := Can.level_ok (t := ct) (R := NamedAt)
        (fun u e hs _ hp => Can.pair_named hRd (p := ⟨ct, u, _, _⟩) (AtHand.child (p := p) hcht (childSeen_of hct (hss u) (hsd u) hs)) hp) h3
      have htes : ∀ a ∈ es, a.type = ct := by
        intro a ha
        obtain ⟨q, hq, haq⟩ := zip_mem_left hM.1 ha
        rw [(hM.2 _ haq).1]
        exact ((hi q).1 hq).1
      rcases h.bind_error with h | ⟨kids', h4, h⟩
      · obtain ⟨rfl, hnu⟩ := addElems_error h.of_ret
        have hnes : ¬ UniqueNames es := by
          intro hu
          apply hnu
          unfold UniqueNames
          rw [List.pairwise_append]
          refine ⟨hu0, hu, ?_⟩
          intro a ha b hb hab
          have := ht0 a ha
          rw [hab.1, htes b hb] at this
          simp [Dict.keys] at this
        obtain ⟨c, hcm, c', hcm', hcl⟩ := clash_of_not_unique (fun _ _ h => h) hM hnd hnes
        have g : ∀ c ∈ ps, ChildSeen vs vd H p c ∧ c.Visible C.flags := by
          intro c hcm
          obtain ⟨g1, g2, g3, g4, g5⟩ := (hi c).1 hcm
          obtain ⟨t, u, s, d⟩ := c
          simp only at g1 g2 g3 g4
          subst g1; subst g2; subst g3
          exact ⟨childSeen_of hct (hss u) (hsd u) g4, g5⟩
        exact ⟨c, c', (g c hcm).2, (g c' hcm').2, hcl, .inr ⟨k, p, hc, hv, (g c hcm).1, (g c' hcm').1⟩⟩
      · have h4 := h4.of_ret
        have hk' := addElems_ok h4
        subst hk'
        refine ih' hwf'.2 (fun ct' f' hm => hms ct' f' (List.mem_cons_of_mem _ hm))
          (fun ct' f' hm => hmd ct' f' (List.mem_cons_of_mem _ hm))
          (fun ct' hk => hmc ct' (List.mem_cons_of_mem _ hk)) (fun ct' hk => hmt ct' (List.mem_cons_of_mem _ hk)) (addElems_unique h4 hu0) ?_ h
        intro a ha
        rcases List.mem_append.1 ha with ha | ha
        · intro hk; exact ht0 a ha (List.mem_cons_of_mem _ hk)
        · rw [htes a ha]; exact hwf'.1

theorem Can.pair_error (hH : ∃ d, H d) (hRd : Readable C vs vd H) {N : Nat} (n : Nat) : ∀ (k : Nat) (p : Pos V), AtHand vs vd H p →
    Met C vs vd H k p → p.Visible C.flags → (p.src ≠ none ∨ p.dst ≠ none) → N = k + 1 + n → ∀ e,
    Can H (qPair C vs vd (qList C vs vd n) p.src p.dst) (.error e) → DiffTrouble C vs vd H N e := by
  induction n using Nat.strongRecOn with
  | ind n ih =>
    intro k p hp hc hv hs hN e h
    obtain ⟨m, hm⟩ := or_some_of hs
    unfold qPair at h
    rw [hm] at h
    simp only at h
    rw [if_neg (fun hk => hv ((skipPair_iff _ _ _ hs).1 hk))] at h
    rcases h.bind_error with h | ⟨mp, hmp, h⟩
    · exfalso
      have h := h.of_ret
      unfold qMapping at h
      split at h
      · cases h
      · cases h
      · cases h
      · rename_i h1 h2; rw [h1, h2] at hs; simp at hs
    rcases h.bind_error with h | ⟨_, _, h⟩
    · obtain ⟨w1, w2, w3, w4, w5⟩ := hp.mapping hRd hmp.of_ret
      refine Can.childLoop_error hH hRd hc hv hN (fun m q hm hq hcq hvq hsq e he => ?_) mp w1 w2 w3 (fun ct => (w4 ct).1) w5
        List.Pairwise.nil (by simp) h
      exact ih m (by omega) (k + 1) q hq hcq hvq hsq (by omega) e he
    · cases h.of_ret

theorem Can.types_error (hH : ∃ d, H d) (hRd : Readable C vs vd H) {n : Nat} (ts : List String) (hnd : ts.Nodup)
    (h1 : ∀ t ∈ ts, t ∈ C.src.topLevel) (h2 : ∀ t ∈ ts, t ∈ C.dst.topLevel)
    {kids0 : List (Elem V)} (hu0 : UniqueNames kids0) (ht0 : ∀ a ∈ kids0, a.type ∉ ts)
    {e : Err} (h : Can H (qTypes C vs vd n ts kids0) (.error e)) : DiffTrouble C vs vd H n e := by
  induction ts generalizing kids0 with
  | nil => cases h.of_ret
  | cons t rest ih' =>
    have hnd' := List.nodup_cons.1 hnd
    have hst := h1 t (by simp)
    have hdt := h2 t (by simp)
    unfold qTypes at h
    rcases h.bind_error with h | ⟨so, g1, h⟩
    · obtain ⟨rfl, u, hu⟩ := h.all_error hRd.src (hRd.src_types t hst)
      exact .inl ⟨t, u, .inl ⟨hst, hu⟩⟩
    rcases h.bind_error with h | ⟨do', g2, h⟩
    · obtain ⟨rfl, u, hu⟩ := h.all_error hRd.dst (hRd.dst_types t hdt)
      exact .inl ⟨t, u, .inr ⟨hdt, hu⟩⟩
    have hss := g1.all_byUid hH hRd.src (hRd.src_types t hst)
    have hsd := g2.all_byUid hH hRd.dst (hRd.dst_types t hdt)
    have top : ∀ u, (Dict.get? (byUid so) u ≠ none ∨ Dict.get? (byUid do') u ≠ none) → TopSeen C vs vd H ⟨t, u, Dict.get? (byUid so) u, Dict.get? (byUid do') u⟩ :=
      fun u hside => ⟨hst, hdt, hss u, hsd u, hside⟩
    rcases h.bind_error with h | ⟨es, h3, h⟩
    · cases n with
      | zero => cases h.of_ret; exact .inl ⟨rfl, t, hst, hdt⟩
      | succ n =>
        obtain ⟨u, hs, hcase⟩ := h.level_error
        have hch := top u hs
        have hheld := AtHand.top hRd hch
        rcases hcase with hval | ⟨hvis, hpp⟩
        · obtain ⟨rfl, hun⟩ := validatePair_error (p := ⟨t, u, _, _⟩) hval (hheld.same_type hRd)
          exact ⟨_, _, .top hch, hun⟩
        · exact Can.pair_error hH hRd n 0 _ hheld (.top hch) hvis hs (by omega) e hpp
    cases n with
    | zero => cases h3.of_ret
    | succ n =>
      obtain ⟨ps, hM, hnd2, hi⟩ := Can.level_ok (t := t) (R := NamedAt)
        (fun u e hs _ hp => Can.pair_named hRd (p := ⟨t, u, _, _⟩) (AtHand.top hRd (top u hs)) hp) h3
      have htes : ∀ a ∈ es, a.type = t := by
        intro a ha
        obtain ⟨q, hq, haq⟩ := zip_mem_left hM.1 ha
        rw [(hM.2 _ haq).1]
        exact ((hi q).1 hq).1
      rcases h.bind_error with h | ⟨kids', h4, h⟩
      · obtain ⟨rfl, hnu⟩ := addElems_error h.of_ret
        have hnes : ¬ UniqueNames es := by
          intro hu
          apply hnu
          unfold UniqueNames
          rw [List.pairwise_append]
          refine ⟨hu0, hu, ?_⟩
          intro a ha b hb hab
          have := ht0 a ha
          rw [hab.1, htes b hb] at this
          simp at this
        obtain ⟨c, hcm, c', hcm', hcl⟩ := clash_of_not_unique (fun _ _ h => h) hM hnd2 hnes
        have g : ∀ c ∈ ps, TopSeen C vs vd H c ∧ c.Visible C.flags := by
          intro c hcm
          obtain ⟨q1, q2, q3, q4, q5⟩ := (hi c).1 hcm
          obtain ⟨t, u, s, d⟩ := c
          simp only at q1 q2 q3 q4
          subst q1; subst q2; subst q3
          exact ⟨top u q4, q5⟩
        exact ⟨c, c', (g c hcm).2, (g c' hcm').2, hcl, .inl ⟨(g c hcm).1, (g c' hcm').1⟩⟩
      · have h4 := h4.of_ret
        have hk' := addElems_ok h4
        subst hk'
        refine ih' hnd'.2 (fun t' hm => h1 t' (List.mem_cons_of_mem _ hm))
          (fun t' hm => h2 t' (List.mem_cons_of_mem _ hm)) (addElems_unique h4 hu0) ?_ h
        intro a ha
        rcases List.mem_append.1 ha with ha | ha
        · intro hk; exact ht0 a ha (List.mem_cons_of_mem _ hk)
        · rw [htes a ha]; exact hnd'.1

theorem Can.len {v : View V} {e : Err} (h : Can H v.len (.error e)) : False := by
  cases v with
  | held => cases h.of_ret
  | server A sid =>
    rcases Can.bind_error h with h | ⟨_, _, h⟩
    · cases h with
      | cmd hc => exact hc trivial
      | scan ks _ _ h => cases h.of_ret
    · cases h.of_ret

theorem Can.diff_error (hH : ∃ d, H d) (hRd : Readable C vs vd H) {n : Nat} {e : Err} (h : Can H (qDiff C vs vd n) (.error e)) : DiffTrouble C vs vd H n e := by
  unfold qDiff at h
  rcases h.bind_error with h | ⟨_, _, h⟩
  · exact h.len.elim
  rcases h.bind_error with h | ⟨_, _, h⟩
  · exact h.len.elim
  rcases h.bind_error with h | ⟨_, _, h⟩
  · obtain ⟨t, ht, h⟩ := h.forEach_error
    unfold qSkipped at h
    split at h
    · rename_i hd
      have hd : t ∈ C.dst.topLevel := by simpa using hd
      rcases h.bind_error with h | ⟨_, _, h⟩
      · obtain ⟨rfl, u, hu⟩ := h.all_error hRd.dst (hRd.dst_types t hd)
        exact .inl ⟨t, u, .inr ⟨hd, hu⟩⟩
      · cases h.of_ret
    · split at h
      · rename_i hs
        have hs : t ∈ C.src.topLevel := by simpa using hs
        rcases h.bind_error with h | ⟨_, _, h⟩
        · obtain ⟨rfl, u, hu⟩ := h.all_error hRd.src (hRd.src_types t hs)
          exact .inl ⟨t, u, .inl ⟨hs, hu⟩⟩
        · cases h.of_ret
      · cases h.of_ret
  · exact Can.types_error hH hRd _ (intersection_nodup hRd.top_nodup) (fun t hm => (mem_intersection.1 hm).2)
      (fun t hm => (mem_intersection.1 hm).1) List.Pairwise.nil (by simp) h

end
end DS
