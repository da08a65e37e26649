import Verif.Spec.Utils
import Verif.Lemmas.Dict
import Verif.Model.Concrete
/-! # Properties of the nested-dictionary helpers: C47, C56 -/
set_option linter.unusedSectionVars false

namespace DS
variable {V : Type} [PyVal V]

theorem HasPath.mono {p : List String} {d d' : List (String × NVal)} (h : HasPath p d) (hs : ∀ x ∈ d, x ∈ d') : HasPath p d' := by
  cases h with
  | last h => exact .last (hs _ h)
  | step h hp => exact .step (hs _ h) hp

theorem getPath_spec (s : String) : ∀ d : List (String × NVal),
    (∀ p, getPath s d = some p → HasPath p d ∧ p.getLast? = some s) ∧ (getPath s d = none → ¬ Occurs s d) := by
  have key : ∀ v : NVal, (∀ p, getPathV s v = some p → ∃ d, v = .dict d ∧ HasPath p d ∧ p.getLast? = some s) ∧
      (getPathV s v = none → ∀ d, v = .dict d → ¬ Occurs s d) := by
    intro v
    refine NVal.rec (motive_1 := fun v => (∀ p, getPathV s v = some p → ∃ d, v = .dict d ∧ HasPath p d ∧ p.getLast? = some s) ∧
      (getPathV s v = none → ∀ d, v = .dict d → ¬ Occurs s d))
      (motive_2 := fun d => (∀ p, getPath s d = some p → HasPath p d ∧ p.getLast? = some s) ∧ (getPath s d = none → ¬ Occurs s d))
      (motive_3 := fun q => (∀ p, getPathV s q.2 = some p → ∃ d, q.2 = .dict d ∧ HasPath p d ∧ p.getLast? = some s) ∧
      (getPathV s q.2 = none → ∀ d, q.2 = .dict d → ¬ Occurs s d)) ?_ ?_ ?_ ?_ ?_ v
    · exact ⟨by simp [getPathV], by simp⟩
    · rintro d ⟨h1, h2⟩
      refine ⟨fun p hp => ⟨d, rfl, h1 p hp⟩, fun hn d' hd' => ?_⟩
      cases hd'; exact h2 hn
    · refine ⟨by simp [getPath], fun _ => ?_⟩
      rintro ⟨p, hp, _⟩
      cases hp <;> rename_i h _ <;> simp at *
    · rintro ⟨k, v⟩ d ⟨h1, h2⟩ ⟨h3, h4⟩
      simp only at h1 h2
      simp only [getPath, getPathP]
      constructor
      · intro p hp
        split at hp
        · rename_i hk; cases hp; subst hk; exact ⟨.last (v := v) (by simp), rfl⟩
        · split at hp
          · rename_i q hq
            cases hp
            obtain ⟨c, rfl, hc, hl⟩ := h1 q hq
            refine ⟨.step (c := c) (by simp) hc, ?_⟩
            cases q with
            | nil => simp at hl
            | cons _ _ => rw [List.getLast?_cons_cons]; exact hl
          · obtain ⟨ha, hb⟩ := h3 p hp
            exact ⟨ha.mono (fun x hx => List.mem_cons_of_mem _ hx), hb⟩
      · intro hn
        split at hn
        · cases hn
        · rename_i hk
          split at hn
          · cases hn
          · rename_i hv
            rintro ⟨p, hp, hl⟩
            cases hp with
            | last h =>
              simp only [List.getLast?_singleton, Option.some.injEq] at hl
              subst hl
              rcases List.mem_cons.1 h with h | h
              · cases h; exact hk rfl
              · exact h4 hn ⟨_, .last h, by simp⟩
            | step h hp =>
              rename_i k' c p'
              have hne : p' ≠ [] := by intro he; subst he; cases hp
              have hl' : p'.getLast? = some s := by
                cases p' with
                | nil => exact absurd rfl hne
                | cons _ _ => rwa [List.getLast?_cons_cons] at hl
              rcases List.mem_cons.1 h with h | h
              · cases h; exact h2 hv c rfl ⟨p', hp, hl'⟩
              · exact h4 hn ⟨_, .step h hp, hl⟩
    · intro k v h; exact h
  intro d
  have := key (.dict d)
  refine ⟨fun p hp => ?_, fun hn => this.2 hn d rfl⟩
  obtain ⟨d', hd, h⟩ := this.1 p hp
  cases hd; exact h

/-- **C47** `get_path` returns a path exactly when the key occurs at some depth, and the path exists and ends at the
key. -/
theorem C47_get_path (s : String) (d : List (String × NVal)) :
    (∀ p, getPath s d = some p → HasPath p d ∧ p.getLast? = some s) ∧ (getPath s d = none ↔ ¬ Occurs s d) := by
  refine ⟨(getPath_spec s d).1, (getPath_spec s d).2, fun h => ?_⟩
  cases hg : getPath s d with
  | none => rfl
  | some p => exact absurd ⟨p, (getPath_spec s d).1 p hg⟩ h

theorem mem_set_of_mem {α : Type} {d : Dict α} {x k : String} {v w : α} (h : (x, v) ∈ d) :
    (x, v) ∈ Dict.set d k w ∨ (x = k ∧ Dict.get? d k = some v) := by
  induction d with
  | nil => simp at h
  | cons p d ih =>
    obtain ⟨a, b⟩ := p
    simp only [Dict.set, Dict.get?_cons]
    split
    · rename_i hk
      rcases List.mem_cons.1 h with h | h
      · cases h; right; exact ⟨hk, rfl⟩
      · left; exact List.mem_cons_of_mem _ h
    · rename_i hk
      rcases List.mem_cons.1 h with h | h
      · cases h; left; simp
      · rcases ih h with h | h
        · left; exact List.mem_cons_of_mem _ h
        · right; exact h

theorem mem_set_self {α : Type} (d : Dict α) (k : String) (w : α) : (k, w) ∈ Dict.set d k w :=
  Dict.mem_of_get? (Dict.get?_set_self _ _ _)

/-- **C47** `set_key` never removes a key path, and makes the given path exist. -/
theorem C47_set_key (ks : List String) (d d' : Dict NVal) (h : setKey ks d = some d') :
    (∀ p, HasPath p d → HasPath p d') ∧ (ks ≠ [] → HasPath ks d') := by
  induction ks generalizing d d' with
  | nil => simp only [setKey, Option.some.injEq] at h; subst h; exact ⟨fun _ h => h, by simp⟩
  | cons k ks ih =>
    have mk : ∀ (c : Dict NVal) (c' : Dict NVal), setKey ks c = some c' →
        (Dict.get? d k = none ∨ Dict.get? d k = some (.dict c)) →
        (∀ p, HasPath p d → HasPath p (Dict.set d k (.dict c'))) ∧ HasPath (k :: ks) (Dict.set d k (.dict c')) := by
      intro c c' hc hg
      obtain ⟨i1, i2⟩ := ih c c' hc
      constructor
      · intro p hp
        cases hp with
        | last hm =>
          rename_i x v
          rcases mem_set_of_mem (k := k) (w := .dict c') hm with h | h
          · exact .last h
          · rw [h.1]; exact .last (mem_set_self _ _ _)
        | step hm hp =>
          rename_i x e p
          rcases mem_set_of_mem (k := k) (w := .dict c') hm with h | ⟨rfl, h⟩
          · exact .step h hp
          · rcases hg with hg | hg
            · rw [hg] at h; cases h
            · rw [hg] at h; cases h; exact .step (mem_set_self _ _ _) (i1 _ hp)
      · by_cases hk : ks = []
        · subst hk; exact .last (mem_set_self _ _ _)
        · exact .step (mem_set_self _ _ _) (i2 hk)
    simp only [setKey] at h
    split at h
    · rename_i hg
      rw [Option.map_eq_some_iff] at h
      obtain ⟨c', hc, rfl⟩ := h
      exact ⟨(mk [] c' hc (.inl hg)).1, fun _ => (mk [] c' hc (.inl hg)).2⟩
    · rename_i c hg
      rw [Option.map_eq_some_iff] at h
      obtain ⟨c', hc, rfl⟩ := h
      exact ⟨(mk c c' hc (.inr hg)).1, fun _ => (mk c c' hc (.inr hg)).2⟩
    · rename_i hg
      split at h
      · rename_i hk; cases h; subst hk
        exact ⟨fun _ h => h, fun _ => .last (Dict.mem_of_get? hg)⟩
      · cases h

/-- No leaf value at any depth: what `get_tree_traversal` builds. -/
inductive AllDict : List (String × NVal) → Prop where
  | mk {d} : (∀ k, (k, NVal.leaf) ∉ d) → (∀ k c, (k, NVal.dict c) ∈ d → AllDict c) → AllDict d

theorem mem_set_cases {α : Type} {d : Dict α} {x k : String} {v w : α} (h : (x, v) ∈ Dict.set d k w) :
    (x, v) ∈ d ∨ (x = k ∧ v = w) := by
  induction d with
  | nil => simp only [Dict.set, List.mem_singleton, Prod.mk.injEq] at h; exact .inr h
  | cons p d ih =>
    obtain ⟨a, b⟩ := p
    simp only [Dict.set] at h
    split at h
    · rename_i hk
      rcases List.mem_cons.1 h with h | h
      · cases h; right; exact ⟨hk, rfl⟩
      · left; exact List.mem_cons_of_mem _ h
    · rcases List.mem_cons.1 h with h | h
      · cases h; left; simp
      · rcases ih h with h | h
        · left; exact List.mem_cons_of_mem _ h
        · right; exact h

theorem setKey_allDict (ks : List String) (d : Dict NVal) (h : AllDict d) : ∃ d', setKey ks d = some d' ∧ AllDict d' := by
  induction ks generalizing d with
  | nil => exact ⟨d, rfl, h⟩
  | cons k ks ih =>
    obtain ⟨hl, h⟩ := h
    have fin : ∀ c', AllDict c' → AllDict (Dict.set d k (.dict c')) := by
      intro c' hc'
      refine ⟨fun x hx => ?_, fun x c hx => ?_⟩
      · rcases mem_set_cases hx with hx | ⟨_, he⟩
        · exact hl x hx
        · cases he
      · rcases mem_set_cases hx with hx | ⟨_, he⟩
        · exact h x c hx
        · cases he; exact hc'
    simp only [setKey]
    split
    · obtain ⟨c', h1, h2⟩ := ih [] ⟨by simp, by simp⟩
      exact ⟨_, by rw [h1]; rfl, fin c' h2⟩
    · rename_i c hg
      have hall := h _ _ (Dict.mem_of_get? hg)
      obtain ⟨c', h1, h2⟩ := ih c hall
      exact ⟨_, by rw [h1]; rfl, fin c' h2⟩
    · rename_i hg
      exact absurd (Dict.mem_of_get? hg) (hl _)

theorem treeChildren_spec (key : String) (cs : List String) (d : Dict NVal) (h : AllDict d) (ho : Occurs key d) :
    ∃ d', treeChildren key cs d = some d' ∧ AllDict d' ∧ (∀ p, HasPath p d → HasPath p d') ∧
      ∀ c ∈ cs, ∃ p, p.getLast? = some key ∧ HasPath (p ++ [c]) d' := by
  induction cs generalizing d with
  | nil => exact ⟨d, rfl, h, fun _ h => h, by simp⟩
  | cons c cs ih =>
    simp only [treeChildren]
    cases hg : getPath key d with
    | none => exact absurd ho ((C47_get_path key d).2.1 hg)
    | some p =>
      obtain ⟨_, hl⟩ := (C47_get_path key d).1 p hg
      simp only [Option.getD_some]
      obtain ⟨d1, h1, h2⟩ := setKey_allDict (p ++ [c]) d h
      obtain ⟨h3, h4⟩ := C47_set_key _ _ _ h1
      obtain ⟨q, hq, hql⟩ := ho
      obtain ⟨d', e1, e2, e3, e4⟩ := ih d1 h2 ⟨q, h3 _ hq, hql⟩
      refine ⟨d', by rw [h1]; exact e1, e2, fun p hp => e3 _ (h3 _ hp), ?_⟩
      intro x hx
      rcases List.mem_cons.1 hx with rfl | hx
      · exact ⟨p, hl, e3 _ (h4 (by simp))⟩
      · exact e4 x hx

theorem treeKeys_spec (A : Adapter V) (ks : List String) (d : Dict NVal) (h : AllDict d) :
    ∃ d', treeKeys A ks d = some d' ∧ (∀ p, HasPath p d → HasPath p d') ∧ (∀ k ∈ ks, Occurs k d') ∧
      ∀ k ∈ ks, ∀ c, Dict.get? A.classes k = some c → ∀ t ∈ Dict.keys c.children,
        ∃ p, p.getLast? = some k ∧ HasPath (p ++ [t]) d' := by
  induction ks generalizing d with
  | nil => exact ⟨d, rfl, fun _ h => h, by simp, by simp⟩
  | cons k ks ih =>
    simp only [treeKeys]
    obtain ⟨d1, h1, h2, h3, h4⟩ : ∃ d1, (if (getPath k d).isNone then setKey [k] d else some d) = some d1 ∧ AllDict d1 ∧
        (∀ p, HasPath p d → HasPath p d1) ∧ Occurs k d1 := by
      cases hg : getPath k d with
      | none =>
        obtain ⟨d1, a, b⟩ := setKey_allDict [k] d h
        obtain ⟨c1, c2⟩ := C47_set_key _ _ _ a
        exact ⟨d1, by simpa using a, b, c1, [k], c2 (by simp), by simp⟩
      | some p => exact ⟨d, by simp, h, fun _ h => h, p, (C47_get_path k d).1 p hg⟩
    rw [h1]
    simp only [Option.bind_some]
    obtain ⟨d2, e1, e2, e3, e4⟩ := treeChildren_spec k ((Dict.get? A.classes k).elim [] (fun c => Dict.keys c.children)) d1 h2 h4
    rw [e1]
    simp only [Option.bind_some]
    obtain ⟨d', f1, f2, f3, f4⟩ := ih d2 e2
    refine ⟨d', f1, fun p hp => f2 _ (e3 _ (h3 _ hp)), ?_, ?_⟩
    · intro x hx
      rcases List.mem_cons.1 hx with rfl | hx
      · obtain ⟨p, hp, hl⟩ := h4; exact ⟨p, f2 _ (e3 _ hp), hl⟩
      · exact f3 x hx
    · intro x hx c hc t ht
      rcases List.mem_cons.1 hx with rfl | hx
      · rw [hc] at e4
        obtain ⟨p, hp, hh⟩ := e4 t ht
        exact ⟨p, hp, f2 _ hh⟩
      · exact f4 x hx c hc t ht

/-- **C47** `get_tree_traversal(as_dict=True)` always succeeds; it contains every model class of the adapter, and every
child type at a path directly below an occurrence of its parent. -/
theorem C47_tree_traversal (A : Adapter V) :
    ∃ d, treeTraversal A = some d ∧
      (∀ k ∈ A.topLevel, Occurs k d) ∧ (∀ k c, (k, c) ∈ A.classes → Occurs k d) ∧
      (∀ k c, Dict.get? A.classes k = some c → ∀ t ∈ Dict.keys c.children,
        ∃ p, p.getLast? = some k ∧ HasPath (p ++ [t]) d) := by
  have hv : ∀ k, k ∈ A.topLevel ∨ k ∈ Dict.keys A.classes → k ∈ valueOrder A := by
    intro k hk
    unfold valueOrder
    rw [List.mem_append, List.mem_filter]
    by_cases ht : k ∈ A.topLevel
    · exact .inl ht
    · exact .inr ⟨hk.resolve_left ht, by simpa using ht⟩
  obtain ⟨d, h1, _, h3, h4⟩ := treeKeys_spec A (valueOrder A) [] ⟨by simp, by simp⟩
  refine ⟨d, h1, fun k hk => h3 k (hv k (.inl hk)), fun k c hk => h3 k (hv k (.inr (Dict.mem_keys_of_mem hk))), ?_⟩
  intro k c hc t ht
  exact h4 k (hv k (.inr (Dict.mem_keys_iff.2 ⟨c, hc⟩))) c hc t ht

/-! ## C56 -/

/-- **C56** `tree_string` draws the root plus exactly one line per key at any depth. -/
theorem C56_tree_string_lines (d : List (String × NVal)) (root : String) :
    (treeString d root).length = 1 + nsize d ∧ (treeString d root).head? = some root := by
  refine ⟨?_, rfl⟩
  have key : ∀ v : NVal, ∀ pfx, (treeV pfx v).length = v.size := by
    intro v
    refine NVal.rec (motive_1 := fun v => ∀ pfx, (treeV pfx v).length = v.size)
      (motive_2 := fun d => ∀ pfx, (treeLines pfx d).length = nsize d)
      (motive_3 := fun q => ∀ pfx, (treeV pfx q.2).length = q.2.size) ?_ ?_ ?_ ?_ ?_ v
    · intro pfx; simp [treeV, NVal.size]
    · intro d h pfx; simp [treeV, NVal.size, h]
    · intro pfx; simp [treeLines, nsize]
    · rintro ⟨k, v⟩ d h1 h2 pfx
      simp only at h1
      simp only [treeLines, treeP, nsize, psize, List.length_append, List.length_cons, h1, h2]
      omega
    · intro k v h; exact h
  have := key (.dict d) ""
  simp only [treeV, NVal.size] at this
  simp [treeString, this, Nat.add_comm]

theorem rows_ne : ∀ v : NVal, ∀ r ∈ rowsV v, r ≠ [] := by
  intro v
  refine NVal.rec (motive_1 := fun v => ∀ r ∈ rowsV v, r ≠ []) (motive_2 := fun d => ∀ r ∈ rows d, r ≠ [])
    (motive_3 := fun _ => True) ?_ ?_ ?_ ?_ ?_ v
  · intro r h; simp [rowsV] at h
  · intro d h r hr; rw [rowsV] at hr; exact h r hr
  · intro r h; simp [rows] at h
  · rintro ⟨k, v⟩ d _ h2 r hr
    simp only [rows, rowsP, List.cons_append, List.mem_cons, List.mem_append, List.mem_map] at hr
    rcases hr with rfl | ⟨_, _, rfl⟩ | hr
    · simp
    · simp
    · exact h2 r hr
  · intro k v _; trivial

theorem treeLines_rows (d : List (String × NVal)) (pfx : String) : treeLines pfx d = (rows d).map (pfx ++ drawRow ·) := by
  have key : ∀ v : NVal, ∀ pfx, treeV pfx v = (rowsV v).map (pfx ++ drawRow ·) := by
    intro v
    refine NVal.rec (motive_1 := fun v => ∀ pfx, treeV pfx v = (rowsV v).map (pfx ++ drawRow ·))
      (motive_2 := fun d => ∀ pfx, treeLines pfx d = (rows d).map (pfx ++ drawRow ·))
      (motive_3 := fun q => ∀ pfx, treeV pfx q.2 = (rowsV q.2).map (pfx ++ drawRow ·)) ?_ ?_ ?_ ?_ ?_ v
    · intro pfx; simp [treeV, rowsV]
    · intro d h pfx; rw [treeV, rowsV]; exact h pfx
    · intro pfx; simp [treeLines, rows]
    · rintro ⟨k, v⟩ d h1 h2 pfx
      simp only at h1
      rw [treeLines, rows, treeP, rowsP, h1, h2, List.map_append, List.map_cons, List.map_map]
      congr 2
      · simp only [drawRow]
        cases d.isEmpty <;> simp [LAST, TEE, String.append_assoc]
      · apply List.map_congr_left
        intro r hr
        obtain ⟨a, r', rfl⟩ := List.exists_cons_of_ne_nil (rows_ne v r hr)
        simp only [Function.comp, drawRow]
        cases d.isEmpty <;> simp [SPACE, BRANCH, String.append_assoc]
    · intro k v h; exact h
  have := key (.dict d) pfx
  rwa [treeV, rowsV] at this

/-- **C56** The lines below the root are the pictures of the keys, in order. -/
theorem C56_tree_string_text (d : List (String × NVal)) (root : String) : treeString d root = root :: (rows d).map drawRow := by
  unfold treeString
  rw [treeLines_rows]
  simp

/-- **C56** The keys drawn are exactly those that occur, at any depth. -/
theorem C56_tree_string_keys (d : List (String × NVal)) (p : List String) : HasPath p d ↔ ∃ r ∈ rows d, r.map Prod.fst = p := by
  have key : ∀ v : NVal, ∀ d, v = .dict d → ∀ p, HasPath p d ↔ ∃ r ∈ rows d, r.map Prod.fst = p := by
    intro v
    refine NVal.rec (motive_1 := fun v => ∀ d, v = .dict d → ∀ p, HasPath p d ↔ ∃ r ∈ rows d, r.map Prod.fst = p)
      (motive_2 := fun d => ∀ p, HasPath p d ↔ ∃ r ∈ rows d, r.map Prod.fst = p)
      (motive_3 := fun q => ∀ d, q.2 = .dict d → ∀ p, HasPath p d ↔ ∃ r ∈ rows d, r.map Prod.fst = p) ?_ ?_ ?_ ?_ ?_ v
    · intro d h; cases h
    · intro d h d' h'; cases h'; exact h
    · intro p
      constructor
      · intro h; cases h with
        | last h => cases h
        | step h _ => cases h
      · rintro ⟨r, h, _⟩; simp [rows] at h
    · rintro ⟨k, v⟩ d h1 h2 p
      simp only at h1
      simp only [rows, rowsP, List.cons_append, List.mem_cons, List.mem_append, List.mem_map]
      constructor
      · intro h
        cases h with
        | @last k' v' _ h =>
          rcases List.mem_cons.1 h with h | h
          · cases h; exact ⟨_, .inl rfl, rfl⟩
          · obtain ⟨r, g1, g2⟩ := (h2 _).1 (.last h); exact ⟨r, .inr (.inr g1), g2⟩
        | @step k' d' _ p' h hp =>
          rcases List.mem_cons.1 h with h | h
          · cases h
            obtain ⟨r, g1, g2⟩ := (h1 _ rfl p').1 hp
            exact ⟨_, .inr (.inl ⟨r, by rw [rowsV]; exact g1, rfl⟩), by simp [g2]⟩
          · obtain ⟨r, g1, g2⟩ := (h2 _).1 (.step h hp); exact ⟨r, .inr (.inr g1), g2⟩
      · rintro ⟨r, rfl | ⟨r', h, rfl⟩ | h, rfl⟩
        · exact .last (v := v) (by simp)
        · cases v with
          | leaf => simp [rowsV] at h
          | dict d' =>
            rw [rowsV] at h
            exact .step (by simp) ((h1 _ rfl _).2 ⟨r', h, rfl⟩)
        · exact ((h2 _).2 ⟨r, h, rfl⟩).mono (fun x hx => by simp [hx])
    · intro k v h; exact h
  exact key (.dict d) d rfl p

namespace Ex
-- C47, C56: the example adapter
example : (treeTraversal (ad 1)).map (fun d => treeString d "backend") =
    some ["backend", "└── site", "    └── device", "        └── interface"] := by decide +kernel
example : getPath "interface" [("site", .dict [("device", .dict [("interface", .leaf)])])] = some ["site", "device", "interface"] := by
  decide +kernel
end Ex
end DS
