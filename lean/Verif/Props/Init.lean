import Verif.Model.Init
import Verif.Props.SyncEx
/-! # C76: construction of adapters and of Redis stores -/
set_option linter.unusedSectionVars false

namespace DS
variable {V E : Type} [PyVal V]

/-- An argument that is given: neither `None` nor empty. -/
def Given (x : Option String) (s : String) : Prop := x = some s ∧ s ≠ ""

theorem orElseStr_given {x : Option String} {s y : String} (h : Given x s) : orElseStr x y = s := by
  obtain ⟨rfl, h⟩ := h; simp [orElseStr, h]

theorem orElseStr_not {x : Option String} {y : String} (h : ∀ s, ¬ Given x s) : orElseStr x y = y := by
  cases x with
  | none => rfl
  | some s =>
    unfold orElseStr
    by_cases hs : s = ""
    · simp [hs]
    · exact absurd ⟨rfl, hs⟩ (h s)

theorem orElseStr_ne {x : Option String} : orElseStr x "" ≠ "" ↔ ∃ s, Given x s := by
  constructor
  · intro h
    by_cases hx : ∃ s, Given x s
    · exact hx
    · exact absurd (orElseStr_not (fun s hs => hx ⟨s, hs⟩)) h
  · rintro ⟨s, hs⟩; rw [orElseStr_given hs]; exact hs.2

/-- The server the arguments of `RedisStore()` name: the one at the URL if a URL is given, else the one at the host. -/
def Names (a : RedisArgs) (t : Target) : Prop :=
  (∃ u, Given a.url u ∧ t = .url u a.db) ∨ ((∀ u, ¬ Given a.url u) ∧ ∃ o, Given a.host o ∧ t = .host o a.port a.db)

theorem redisTarget_names {a : RedisArgs} {t : Target} (ht : redisTarget a = some t) : Names a t := by
  unfold redisTarget at ht
  split at ht
  · rename_i hu
    obtain ⟨u, hu⟩ := orElseStr_ne.1 hu
    cases ht
    exact .inl ⟨u, hu, by rw [orElseStr_given hu]⟩
  · rename_i hu
    split at ht
    · rename_i ho
      obtain ⟨o, ho⟩ := orElseStr_ne.1 ho
      cases ht
      exact .inr ⟨fun u hu' => hu (orElseStr_ne.2 ⟨u, hu'⟩), o, ho, by rw [orElseStr_given ho]⟩
    · cases ht

theorem Names.target {a : RedisArgs} {t : Target} (h : Names a t) : redisTarget a = some t := by
  unfold redisTarget
  rcases h with ⟨u, hu, rfl⟩ | ⟨hu, o, ho, rfl⟩
  · rw [if_pos (orElseStr_ne.2 ⟨u, hu⟩), orElseStr_given hu]
  · rw [if_neg (fun h => (orElseStr_ne.1 h).elim hu), if_pos (orElseStr_ne.2 ⟨o, ho⟩), orElseStr_given ho]

/-- **C76** `str(adapter)` is the type alone if no name was given or the name is the type; otherwise the type and the name in quotes.
`repr(adapter)` is the same in angle brackets. -/
theorem C76_text (className : String) (type name : Option String) :
    (∀ s, Given name s → s ≠ type.getD className → adapterText className type name = type.getD className ++ " \"" ++ s ++ "\"") ∧
    ((∀ s, Given name s → s = type.getD className) → adapterText className type name = type.getD className) ∧
    adapterRepr className type name = "<" ++ adapterText className type name ++ ">" := by
  refine ⟨fun s hs hne => ?_, fun h => ?_, rfl⟩
  · unfold adapterText adapterNamed adapterName adapterType
    rw [orElseStr_given hs, if_pos (fun h => hne h.symm)]
  · have : adapterNamed className type name = type.getD className := by
      unfold adapterNamed
      by_cases hx : ∃ s, Given name s
      · obtain ⟨s, hs⟩ := hx; rw [orElseStr_given hs]; exact h s hs
      · exact orElseStr_not (fun s hs => hx ⟨s, hs⟩)
    unfold adapterText adapterName
    rw [this, if_neg (fun h => h rfl)]
    rfl

/-- **C76** Among adapters of one class, `str()` tells different names apart. -/
theorem C76_text_tells_names (className : String) (type : Option String) {s s' : String} (hs : s ≠ "") (hs' : s' ≠ "")
    (h : adapterText className type (some s) = adapterText className type (some s')) : s = s' := by
  have key : ∀ s : String, s ≠ "" → (adapterText className type (some s)).toList =
      (type.getD className).toList ++ (if s = type.getD className then [] else " \"".toList ++ s.toList ++ "\"".toList) := by
    intro s hs
    by_cases he : s = type.getD className
    · rw [(C76_text className type (some s)).2.1 (fun x hx => by cases hx.1; exact he), if_pos he]; simp
    · rw [(C76_text className type (some s)).1 s ⟨rfl, hs⟩ he, if_neg he]
      simp only [String.toList_append, List.append_assoc]
  have h' := congrArg String.toList h
  rw [key s hs, key s' hs'] at h'
  have h2 := List.append_cancel_left h'
  by_cases he : s = type.getD className <;> by_cases he' : s' = type.getD className
  · rw [he, he']
  · rw [if_pos he, if_neg he'] at h2; simp at h2
  · rw [if_neg he, if_pos he'] at h2; simp at h2
  · rw [if_neg he, if_neg he', List.append_assoc, List.append_assoc] at h2
    exact String.toList_inj.1 (List.append_cancel_right (List.append_cancel_left h2))

/-- **C76** A new adapter without a store of its own choice is empty, and no other adapter notices (`sid` is a new store). -/
theorem C76_new_adapter_empty (id sid : Nat) (className : String) (type name : Option String) (top : List String) (classes : Dict (ModelClass V)) (w : World V E) :
    ∃ A, (adapterInit id className type name top classes (.newLocal sid) w).1 = .ok A ∧
      (∀ t u, (snap A (adapterInit id className type name top classes (.newLocal sid) w).2).find t u = none) ∧
      (∀ t, (snap A (adapterInit id className type name top classes (.newLocal sid) w).2).all t = []) ∧
      ∀ B : Adapter V, B.ref.store ≠ .local sid → snap B (adapterInit id className type name top classes (.newLocal sid) w).2 = snap B w := by
  refine ⟨_, rfl, fun t u => ?_, fun t => ?_, fun B hB => ?_⟩
  · simp [adapterInit, snap, findRef, tbl, M.modify, World.setLoc, bind, M.bind, pure, M.pure]
  · simp [adapterInit, snap, tbl, M.modify, World.setLoc, bind, M.bind, pure, M.pure]
  · have hl : ∀ s, s ≠ sid → (adapterInit id className type name top classes (.newLocal sid) w).2.loc s = w.loc s := fun s hs => if_neg hs
    unfold snap
    cases hb : B.ref.store with
    | redis s => rfl
    | «local» s =>
      have hs : s ≠ sid := fun h => hB (by rw [hb, h])
      unfold findRef tbl
      simp only [hl s hs]
      rfl

/-- **C76** An adapter constructed over an existing store changes nothing and has, at once, the contents of every adapter with
that store. -/
theorem C76_given_store (id : Nat) (className : String) (type name : Option String) (top : List String) (classes : Dict (ModelClass V)) (s : StoreKind) (w : World V E) :
    ∃ A, adapterInit id className type name top classes (.given s) w = (.ok A, w) ∧ A.topLevel = top ∧ A.classes = classes ∧
      ∀ B : Adapter V, B.ref.store = s → snap A w = snap B w := by
  refine ⟨_, rfl, rfl, rfl, fun B hB => ?_⟩
  unfold snap
  rw [hB]

/-- **C76** A Redis store is constructed only if the server answered, at the URL if one was given and at the host otherwise; its keys
are those of the given id, or of a new one. -/
theorem C76_redis_connected {net : Target → Contact} {uuid : String} {a : RedisArgs} {t : Target} {sid : String} (h : redisInit net uuid a = .ok (t, sid)) :
    net t = .answer true ∧
    Names a t ∧
    (∀ s, Given a.storeId s → sid = s) ∧ ((∀ s, ¬ Given a.storeId s) → sid = uuid) := by
  unfold redisInit at h
  split at h
  · cases h
  · cases ht : redisTarget a with
    | none => rw [ht] at h; cases h
    | some t' =>
      rw [ht] at h
      dsimp only at h
      cases hn : net t' with
      | connectionError => rw [hn] at h; cases h
      | raises e => rw [hn] at h; cases h
      | answer b =>
        rw [hn] at h
        cases b with
        | false => cases h
        | true =>
          cases h
          exact ⟨hn, redisTarget_names ht, fun s hs => orElseStr_given hs, orElseStr_not⟩

/-- **C76** And it is constructed whenever the server named answers, unless a URL and a host with a port are given together. -/
theorem C76_redis_available {net : Target → Contact} (uuid : String) {a : RedisArgs} {t : Target} (ht : Names a t) (hn : net t = .answer true)
    (hb : ¬ ((∃ u, Given a.url u) ∧ (∃ o, Given a.host o) ∧ a.port ≠ 0)) : ∃ sid, redisInit net uuid a = .ok (t, sid) := by
  unfold redisInit
  rw [if_neg (fun h => hb ⟨orElseStr_ne.1 h.1, orElseStr_ne.1 h.2.1, h.2.2⟩), ht.target]
  dsimp only
  rw [hn]
  exact ⟨_, rfl⟩

/-- **C76** When it is not: its own `ValueError` exactly if both a URL and a host with a port were given; `ObjectStoreException` if neither was
given or the server named did not answer; any other exception comes from the client library. -/
theorem C76_redis_refused {net : Target → Contact} {uuid : String} {a : RedisArgs} {x : InitErr} (h : redisInit net uuid a = .error x) :
    (x = .valueError ↔ (∃ u, Given a.url u) ∧ (∃ o, Given a.host o) ∧ a.port ≠ 0) ∧
    (x = .objectStore → ((∀ u, ¬ Given a.url u) ∧ ∀ o, ¬ Given a.host o) ∨ ∃ t, Names a t ∧ (net t = .answer false ∨ net t = .connectionError)) ∧
    ∀ e, x = .other e → ∃ t, Names a t ∧ net t = .raises e := by
  unfold redisInit at h
  split at h
  · rename_i hb
    cases h
    exact ⟨⟨fun _ => ⟨orElseStr_ne.1 hb.1, orElseStr_ne.1 hb.2.1, hb.2.2⟩, fun _ => rfl⟩, fun h => (by cases h), fun e h => by cases h⟩
  · rename_i hb
    have hv : ¬ ((∃ u, Given a.url u) ∧ (∃ o, Given a.host o) ∧ a.port ≠ 0) := fun ⟨h1, h2, h3⟩ => hb ⟨orElseStr_ne.2 h1, orElseStr_ne.2 h2, h3⟩
    cases ht : redisTarget a with
    | none =>
      rw [ht] at h; cases h
      refine ⟨⟨fun h => (by cases h), fun h => absurd h hv⟩, fun _ => .inl ?_, fun e h => by cases h⟩
      unfold redisTarget at ht
      split at ht
      · cases ht
      · rename_i hu
        split at ht
        · cases ht
        · rename_i ho
          exact ⟨fun u h => hu (orElseStr_ne.2 ⟨u, h⟩), fun o h => ho (orElseStr_ne.2 ⟨o, h⟩)⟩
    | some t =>
      rw [ht] at h
      dsimp only at h
      cases hn : net t with
      | connectionError => rw [hn] at h; cases h; exact ⟨⟨fun h => (by cases h), fun h => absurd h hv⟩, fun _ => .inr ⟨t, redisTarget_names ht, .inr hn⟩, fun e h => by cases h⟩
      | raises e => rw [hn] at h; cases h; exact ⟨⟨fun h => (by cases h), fun h => absurd h hv⟩, fun h => (by cases h), fun e h => by cases h; exact ⟨t, redisTarget_names ht, hn⟩⟩
      | answer b =>
        rw [hn] at h
        cases b with
        | false => cases h; exact ⟨⟨fun h => (by cases h), fun h => absurd h hv⟩, fun _ => .inr ⟨t, redisTarget_names ht, .inl hn⟩, fun e h => by cases h⟩
        | true => cases h

/-- **C76** The check for a URL and a host given together looks at the port as well: with port 0 both are accepted, and the host is
ignored. -/
theorem C76_port_zero {net : Target → Contact} (uuid : String) {a : RedisArgs} {u o : String} (hu : Given a.url u) (_ho : Given a.host o) (hp : a.port = 0)
    (hn : net (.url u a.db) = .answer true) : ∃ sid, redisInit net uuid a = .ok (.url u a.db, sid) := by
  exact C76_redis_available uuid (.inl ⟨u, hu, rfl⟩) hn (fun h => h.2.2 hp)

namespace Ex
example : adapterText "Nautobot" none none = "Nautobot" ∧ adapterText "Nautobot" none (some "") = "Nautobot" ∧ adapterText "Nautobot" none (some "Nautobot") = "Nautobot" ∧
    adapterText "Nautobot" (some "SoT") (some "lab") = "SoT \"lab\"" := by decide +kernel
/-- A network with one server. -/
def net1 : Target → Contact
  | .host "db1" 6379 _ => .answer true
  | .url "redis://db1" _ => .answer true
  | .url "http://db1" _ => .raises .valueError
  | _ => .connectionError
example : redisInit net1 "6f1a" { host := some "db1", storeId := some "one" } = .ok (.host "db1" 6379 0, "one") := by decide +kernel
example : redisInit net1 "6f1a" { url := some "redis://db1" } = .ok (.url "redis://db1" 0, "6f1a") := by decide +kernel
example : redisInit net1 "6f1a" { url := some "redis://db1", host := some "db1" } = .error .valueError := by decide +kernel
example : redisInit net1 "6f1a" { host := some "db2" } = .error .objectStore ∧ redisInit net1 "6f1a" {} = .error .objectStore := by decide +kernel
example : redisInit net1 "6f1a" { url := some "http://db1" } = .error (.other .valueError) := by decide +kernel
example : ∃ sid, redisInit net1 "6f1a" { url := some "redis://db1", host := some "db2", port := 0 } = .ok (.url "redis://db1" 0, sid) :=
  C76_port_zero _ ⟨rfl, by decide⟩ ⟨rfl, by decide⟩ rfl rfl
end Ex
end DS
