import Verif.Props.Concurrent
import Verif.Model.Concrete
/-! # C64, C65: concrete executions, and races -/
set_option linter.unusedSectionVars false

namespace DS.Ex

/-- Client 0 and client 1 are at `p` and `q`, all others have ended. -/
def two {α : Type} (d : Dict (Obj String)) (p q : Proc String α) : Sys String α :=
  ⟨d, fun j => if j = 0 then .at p else if j = 1 then .at q else .at (.ret (.error .runtimeError))⟩

theorem two_step0 {α : Type} {d : Dict (Obj String)} {c : Cmd String} {k : c.Reply → Proc String α} {q : Proc String α} (hc : ¬ c.isScan) :
    Move 0 (two d (.cmd c k) q) (two (c.exec d).2 (k (c.exec d).1) q) := by
  have := Move.cmd (i := 0) (s := two d (.cmd c k) q) (c := c) (k := k) rfl hc
  have e : two (c.exec d).2 (k (c.exec d).1) q = ⟨(c.exec d).2, fun j => if j = 0 then .at (k (c.exec d).1) else ((two d (.cmd c k) q).cl j).see (c.exec d).2⟩ := by
    unfold two
    congr
    funext j
    by_cases h0 : j = 0
    · simp [h0]
    · by_cases h1 : j = 1
      · subst h1; rfl
      · simp only [if_neg h0, if_neg h1]; rfl
  rw [e]
  exact this
theorem two_step1 {α : Type} {d : Dict (Obj String)} {c : Cmd String} {k : c.Reply → Proc String α} {p : Proc String α} (hc : ¬ c.isScan) :
    Move 1 (two d p (.cmd c k)) (two (c.exec d).2 p (k (c.exec d).1)) := by
  have := Move.cmd (i := 1) (s := two d p (.cmd c k)) (c := c) (k := k) rfl hc
  have e : two (c.exec d).2 p (k (c.exec d).1) = ⟨(c.exec d).2, fun j => if j = 1 then .at (k (c.exec d).1) else ((two d p (.cmd c k)).cl j).see (c.exec d).2⟩ := by
    unfold two
    congr
    funext j
    by_cases h0 : j = 0
    · subst h0; rfl
    · by_cases h1 : j = 1
      · simp [h1]
      · simp only [if_neg h0, if_neg h1]; rfl
  rw [e]
  exact this

theorem two_scan0 {α : Type} {d : Dict (Obj String)} {pfx : String} {k : List String → Proc String α} {q : Proc String α} {l : List (Sys String α)} {s' : Sys String α} (ks : List String)
    (hk : ∀ x, x ∈ ks ↔ Found d pfx x) (h : Exec (two d (k ks) q) l s') : ∃ l', Exec (two d (.cmd (.scan pfx) k) q) l' s' := by
  have e : two d (k ks) q = ⟨d, fun j => if j = 0 then .at (k ks) else if j = 0 then .scanning pfx (Found d pfx) (Found d pfx) k else (two d (.cmd (.scan pfx) k) q).cl j⟩ := by
    unfold two
    congr
    funext j
    by_cases h0 : j = 0
    · simp [h0]
    · simp [h0]
  rw [e] at h
  refine ⟨_, .step (.scanBegins (i := 0) (pfx := pfx) (k := k) rfl) (.step (.scanEnds (i := 0) (pfx := pfx) (k := k) rfl ks (fun x hx => (hk x).2 hx) (fun x hx => ⟨(hk x).1 hx, ((hk x).1 hx).2⟩)) h)⟩

def devA : Obj String := { m := device "nyc" "leaf" [] }
def devB : Obj String := { m := device "nyc" "spine" [] }
def devKey : String := redisKey "x" "device" "nyc"

/-- **C65** `add` is no lock: two clients that add different objects with the same unique id at the same time may both succeed, and one object is lost. -/
theorem C65_both_add : ∃ (l : List (Sys String Unit)) (s' : Sys String Unit), Exec (two [] (pAdd "x" devA) (pAdd "x" devB)) l s' ∧
    s'.cl 0 = .at (.ret (.ok ())) ∧ s'.cl 1 = .at (.ret (.ok ())) ∧ devB.m.dictEq devA.m = false ∧ Dict.get? s'.srv devKey = some devB := by
  refine ⟨_, _, .step (two_step0 id) (.step (two_step1 id) (.step (two_step0 id) (.step (two_step1 id) (.done _)))), ?_, ?_, ?_, ?_⟩
  · rfl
  · rfl
  · decide +kernel
  · decide +kernel

/-- The theorems apply to this execution. -/
example {l : List (Sys String Unit)} {s' : Sys String Unit} (he : Exec (two [] (pAdd "x" devA) (pAdd "x" devB)) l s') (h : s'.cl 0 = .at (.ret (.ok ()))) :=
  C65_add (i := 0) he rfl h

/-- **C65** Two clients that remove the same object at the same time may both succeed. -/
theorem C65_both_remove : ∃ (l : List (Sys String Unit)) (s' : Sys String Unit),
    Exec (two [(devKey, devA)] (pRemoveItem "x" "device" "nyc") (pRemoveItem "x" "device" "nyc")) l s' ∧
      s'.cl 0 = .at (.ret (.ok ())) ∧ s'.cl 1 = .at (.ret (.ok ())) := by
  refine ⟨_, _, .step (two_step0 id) (.step (two_step1 id) (.step (i := 0) (s1 := two [] (.ret (.ok ())) (.cmd (.del devKey) (fun _ => .ret (.ok ())))) ?_
    (.step (i := 1) (s1 := two [] (.ret (.ok ())) (.ret (.ok ()))) ?_ (.done _)))), rfl, rfl⟩
  · exact two_step0 (c := .del devKey) (k := fun _ => .ret (.ok ())) id
  · exact two_step1 (c := .del devKey) (k := fun _ => .ret (.ok ())) id

/-- **C65** `get_all` may raise `ObjectNotFound` when another client removes an object meanwhile. -/
theorem C65_get_all_may_raise : ∃ (l : List (Sys String (List (Obj String)))) (s' : Sys String (List (Obj String))),
    Exec (two [(devKey, devA)] (pGetAll (adR 1 "x") "x" "device") (Proc.bind (pRemoveItem "x" "device" "nyc") (fun _ => .ret (.ok [])))) l s' ∧
      s'.cl 0 = .at (.ret (.error .objectNotFound)) := by
  obtain ⟨l, hl⟩ := two_scan0 (d := [(devKey, devA)]) (pfx := storeLabel "x" ++ (":" ++ ("device" ++ ":"))) (k := fun ks => Proc.mapEach (pLoad (adR 1 "x")) ks)
    (q := Proc.bind (pRemoveItem "x" "device" "nyc") (fun _ => .ret (.ok []))) [devKey]
    (fun x => by
      unfold Found
      constructor
      · intro hx
        rw [List.mem_singleton] at hx
        subst hx
        exact ⟨by decide +kernel, by decide +kernel⟩
      · exact fun hx => hx.1)
    (.step (i := 1) (s1 := two [(devKey, devA)] (Proc.mapEach (pLoad (adR 1 "x")) [devKey]) (.cmd (.del devKey) (fun _ => .ret (.ok [])))) (two_step1 (c := .exist devKey) id)
      (.step (i := 1) (s1 := two [] (Proc.mapEach (pLoad (adR 1 "x")) [devKey]) (.ret (.ok []))) (two_step1 (c := .del devKey) (k := fun _ => .ret (.ok [])) id)
        (.step (i := 0) (s1 := two [] (.ret (.error .objectNotFound)) (.ret (.ok []))) (two_step0 (c := .get devKey) id) (.done _))))
  exact ⟨l, _, hl, rfl⟩

theorem plain_sids (j : Nat) : Plain (if j = 0 then "x" else "y") := by
  split <;> decide
/-- Clients of the stores `x` and `y`. -/
example {l : List (Sys String Unit)} {s' : Sys String Unit} (he : Exec (two [(devKey, devA)] (pUpdate "x" devB) (pAdd "y" devB)) l s')
    (h : s'.cl 0 = .at (.ret (.ok ()))) :=
  C64_stores_apart (i := 0) he (sids := fun j => if j = 0 then "x" else "y")
    (ps := fun j => if j = 0 then pUpdate "x" devB else if j = 1 then pAdd "y" devB else .ret (.error .runtimeError)) plain_sids
    (fun j hj => by simp [hj])
    (fun j => by
      have h := C64_methods_stay_within (adR 1 "x") (sid := "x") (by decide)
      have h' := C64_methods_stay_within (adR 1 "x") (sid := "y") (by decide)
      refine ⟨?_, ?_⟩
      · unfold two
        by_cases h0 : j = 0
        · simp [h0]
        · by_cases h1 : j = 1 <;> simp [h0, h1]
      · by_cases h0 : j = 0
        · simp only [h0, if_true]; exact h.2.2.2.2.1 devB
        · by_cases h1 : j = 1
          · simp only [h1, if_true, if_neg (show (1 : Nat) ≠ 0 by decide)]; exact h'.2.2.2.1 devB
          · simp only [if_neg h0, if_neg h1]; exact .ret _) h
/-- Such an execution, in which client 1 comes in between. -/
example : ∃ (l : List (Sys String Unit)) (s' : Sys String Unit), Exec (two [(devKey, devA)] (pAdd "x" devA) (pAdd "y" devB)) l s' ∧
    s'.cl 0 = .at (.ret (.ok ())) ∧ s'.cl 1 = .at (.ret (.ok ())) :=
  ⟨_, _, .step (two_step1 id) (.step (two_step0 id) (.step (two_step1 id) (.done _))), rfl, rfl⟩

end DS.Ex
