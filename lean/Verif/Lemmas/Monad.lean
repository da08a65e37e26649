import Verif.Model.World
/-! Unfolding lemmas for the state+exception monad. -/
set_option linter.unusedSectionVars false

namespace DS
variable {V E α β : Type}

theorem M.bind_def (x : M V E α) (f : α → M V E β) (w : World V E) :
    (x >>= f) w = match x w with
      | (.ok a, w') => f a w'
      | (.error e, w') => (.error e, w') := rfl

theorem M.bind_ok {x : M V E α} {f : α → M V E β} {w w' : World V E} {a : α} (h : x w = (.ok a, w')) :
    (x >>= f) w = f a w' := by rw [M.bind_def, h]

theorem M.bind_err {x : M V E α} {f : α → M V E β} {w w' : World V E} {e : Err} (h : x w = (.error e, w')) :
    (x >>= f) w = (.error e, w') := by rw [M.bind_def, h]

theorem M.pure_def (a : α) (w : World V E) : (Pure.pure a : M V E α) w = (.ok a, w) := rfl

theorem M.pure_def' (a : α) (w : World V E) : (M.pure a : M V E α) w = (.ok a, w) := rfl
theorem M.read_bind (f : World V E → M V E β) (w : World V E) : (M.read >>= f) w = f w w := rfl
theorem M.pure_bind' (a : α) (f : α → M V E β) (w : World V E) : ((Pure.pure a : M V E α) >>= f) w = f a w := rfl
theorem M.modify_bind (g : World V E → World V E) (f : Unit → M V E β) (w : World V E) :
    (M.modify g >>= f) w = f () (g w) := rfl
theorem M.emit_bind (ev : Event V) (f : Unit → M V E β) (w : World V E) :
    (M.emit ev >>= f) w = f () { w with trace := w.trace ++ [ev] } := rfl
theorem M.raise_bind (e : Err) (f : α → M V E β) (w : World V E) :
    ((M.raise e : M V E α) >>= f) w = (.error e, w) := rfl
theorem M.bind_assoc' {γ : Type} (x : M V E α) (f : α → M V E β) (g : β → M V E γ) (w : World V E) :
    ((x >>= f) >>= g) w = (x >>= fun a => f a >>= g) w := by
  simp only [M.bind_def]
  split
  · rename_i a w' h
    split at h
    · rename_i h'; simp only [h', h]
    · cases h
  · rename_i a w' h
    split at h
    · rename_i h'; simp only [h', h]
    · rename_i h'; cases h; simp only [h']

theorem M.forEach_nil (f : α → M V E Unit) (w : World V E) : M.forEach f [] w = (.ok (), w) := rfl
theorem M.forEach_cons (f : α → M V E Unit) (a : α) (l : List α) :
    M.forEach f (a :: l) = (f a >>= fun _ => M.forEach f l) := rfl
theorem M.mapEach_nil (f : α → M V E β) (w : World V E) : M.mapEach f [] w = (.ok [], w) := rfl
theorem M.mapEach_cons (f : α → M V E β) (a : α) (l : List α) :
    M.mapEach f (a :: l) = (f a >>= fun b => M.mapEach f l >>= fun bs => Pure.pure (b :: bs)) := rfl
theorem M.orEach_nil (f : α → M V E Bool) (acc : Bool) (w : World V E) : M.orEach f [] acc w = (.ok acc, w) := rfl
theorem M.orEach_cons (f : α → M V E Bool) (a : α) (l : List α) (acc : Bool) :
    M.orEach f (a :: l) acc = (f a >>= fun b => M.orEach f l (acc || b)) := rfl

/-- `m` only moves the world along the relation `R`, whether it returns or raises. -/
def Pres (R : World V E → World V E → Prop) (m : M V E α) : Prop := ∀ w, R w (m w).2

/-- A preorder on worlds. -/
structure PreOrd (R : World V E → World V E → Prop) : Prop where
  refl : ∀ w, R w w
  trans : ∀ a b c, R a b → R b c → R a c

section
variable {R : World V E → World V E → Prop}

theorem Pres.pure (h : PreOrd R) (a : α) : Pres R (Pure.pure a : M V E α) := fun w => h.refl w
theorem Pres.raise (h : PreOrd R) (e : Err) : Pres R (M.raise e : M V E α) := fun w => h.refl w
theorem Pres.read (h : PreOrd R) : Pres R (M.read : M V E _) := fun w => h.refl w
theorem Pres.ofExcept (h : PreOrd R) (r : Except Err α) : Pres R (M.ofExcept r : M V E α) := fun w => h.refl w
theorem Pres.ofOption (h : PreOrd R) (e : Err) (r : Option α) : Pres R (M.ofOption e r : M V E α) := by
  intro w; unfold M.ofOption; cases r <;> exact h.refl w

theorem Pres.bind (h : PreOrd R) {x : M V E α} {f : α → M V E β} (hx : Pres R x) (hf : ∀ a, Pres R (f a)) :
    Pres R (x >>= f) := by
  intro w
  rw [M.bind_def]
  have := hx w
  split
  · rename_i a w' he
    rw [he] at this
    exact h.trans _ _ _ this (hf a w')
  · rename_i e w' he
    rw [he] at this
    exact this

theorem Pres.forEach (h : PreOrd R) {f : α → M V E Unit} (l : List α) (hf : ∀ a ∈ l, Pres R (f a)) :
    Pres R (M.forEach f l) := by
  induction l with
  | nil => exact fun w => h.refl w
  | cons a l ih =>
    rw [M.forEach_cons]
    exact Pres.bind h (hf a (by simp)) (fun _ => ih (fun x hx => hf x (List.mem_cons_of_mem _ hx)))

theorem Pres.mapEach (h : PreOrd R) {f : α → M V E β} (l : List α) (hf : ∀ a ∈ l, Pres R (f a)) :
    Pres R (M.mapEach f l) := by
  induction l with
  | nil => exact fun w => h.refl w
  | cons a l ih =>
    rw [M.mapEach_cons]
    exact Pres.bind h (hf a (by simp)) (fun _ => Pres.bind h (ih (fun x hx => hf x (List.mem_cons_of_mem _ hx)))
      (fun _ => Pres.pure h _))

theorem Pres.orEach (h : PreOrd R) {f : α → M V E Bool} (l : List α) (hf : ∀ a ∈ l, Pres R (f a)) (acc : Bool) :
    Pres R (M.orEach f l acc) := by
  induction l generalizing acc with
  | nil => exact fun w => h.refl w
  | cons a l ih =>
    rw [M.orEach_cons]
    exact Pres.bind h (hf a (by simp)) (fun _ => ih (fun x hx => hf x (List.mem_cons_of_mem _ hx)) _)

theorem Pres.tryCatch (h : PreOrd R) {x : M V E α} {p : Err → Bool} {k : Err → M V E α} (hx : Pres R x)
    (hk : ∀ e, Pres R (k e)) : Pres R (M.tryCatch x p k) := by
  intro w
  unfold M.tryCatch
  have := hx w
  split
  · rename_i a w' he; rw [he] at this; exact this
  · rename_i e w' he
    rw [he] at this
    split
    · exact h.trans _ _ _ this (hk e w')
    · exact this

theorem Pres.attempt (h : PreOrd R) {x : M V E α} {p : Err → Bool} (hx : Pres R x) : Pres R (M.attempt x p) := by
  intro w
  unfold M.attempt
  have := hx w
  split
  · rename_i a w' he; rw [he] at this; exact this
  · rename_i e w' he
    rw [he] at this
    split <;> exact this

theorem Pres.modify {f : World V E → World V E} (hf : ∀ w, R w (f w)) : Pres R (M.modify f : M V E Unit) := hf
theorem Pres.emit {ev : Event V} (hf : ∀ w : World V E, R w { w with trace := w.trace ++ [ev] }) :
    Pres R (M.emit ev : M V E Unit) := hf

theorem Pres.ite {c : Bool} {x y : M V E α} (hx : Pres R x) (hy : Pres R y) : Pres R (if c then x else y) := by
  cases c <;> assumption
end

end DS
