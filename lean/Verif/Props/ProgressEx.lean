import Verif.Props.Progress
import Verif.Props.ConvergeEx
/-! Example for C18. -/

namespace DS.Ex

/-- `ListedOnce`, computed, for the example adapters. -/
theorem listedOnce_of {s : Nat} {w : World String (List Outcome)}
    (h1 : ∀ x ∈ objs s w, ∀ c ∈ x.2.cls.children, ((x.2.kidList c.2).getD []).Nodup)
    (h2 : ∀ x ∈ links s w, ∀ y ∈ links s w, x.2 = y.2 → x.1 = y.1)
    (h3 : ∀ x ∈ links s w, x.2.1 ∉ (ad s).topLevel)
    (h4 : ∀ x ∈ links s w, ((snap (ad s) w).find x.2.1 x.2.2).isSome = true) : ListedOnce (ad s) (snap (ad s) w) where
  nodup t u m ct f l hm hf hl := by
    have := h1 ((t, u), m) (mem_objs hm) (ct, f) (Dict.mem_of_get? hf)
    rw [show (m.kidList f).getD [] = l by rw [hl]; rfl] at this
    exact this
  one t u m t' u' m' ct c hm hm' hl hl' := by
    have := h2 ((t, u), (ct, c)) (mem_links (by simpa [hm, listsO] using hl)) ((t', u'), (ct, c)) (mem_links (by simpa [hm', listsO] using hl')) rfl
    exact ⟨congrArg Prod.fst this, congrArg Prod.snd this⟩
  top t u m ct c hm hl := h3 ((t, u), (ct, c)) (mem_links (by simpa [hm, listsO] using hl))
  stored t u m ct c hm hl := by
    have := h4 ((t, u), (ct, c)) (mem_links (by simpa [hm, listsO] using hl))
    intro h
    rw [h] at this
    cases this

theorem listed1 : ListedOnce (ad 1) (snap (ad 1) w1) := listedOnce_of (by decide +kernel) (by decide +kernel) (by decide +kernel) (by decide +kernel)
theorem listed2 : ListedOnce (ad 2) (snap (ad 2) w1) := listedOnce_of (by decide +kernel) (by decide +kernel) (by decide +kernel) (by decide +kernel)

/-- The hypotheses of C18 hold of `w1`, -/
example := C18_current_within_total 10 (DiffClass.default _) 0 comparable_w1 (fun _ h => by cases h) (fun _ h => by cases h) listed1 listed2
/-- where the callback is called several times with the total 11. -/
example : (diffFrom 10 (ad 2) (ad 1) (DiffClass.default _) 0 w1).2.trace.map (fun | .diffProgress c t => (c, t) | _ => (0, 0)) =
    [(2, 11), (4, 11), (5, 11), (6, 11), (7, 11), (8, 11), (9, 11), (10, 11), (11, 11)] := by decide +kernel

end DS.Ex
