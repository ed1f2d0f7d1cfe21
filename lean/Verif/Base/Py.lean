/-!
# Python exceptions as values

The exception classes that the modelled code can raise.  Messages are not modelled.
-/

namespace Verif

/-- Python exception classes raised by the modelled code (built-in classes plus `struct.error`). -/
inductive PyErr where
  | valueError
  | typeError
  | indexError
  | keyError
  | structError
  | assertionError
  | attributeError
  | overflowError
  | runtimeError
  | recursionError
  | stopIteration
  | unicodeError
  | nameError
  | zeroDivisionError
  | notImplementedError
  | eofError
  | osError
  /-- The model's fuel ran out; in Python the loop would still be running. -/
  | outOfFuel
  deriving DecidableEq, Repr

/-- A Python computation that returns a value or raises. -/
abbrev Py := Except PyErr

/-- Decidable equality of results, used to evaluate concrete cases in the kernel. -/
instance instDecidableEqPy {α : Type _} [DecidableEq α] : DecidableEq (Py α) := fun a b =>
  match a, b with
  | .ok x, .ok y => if h : x = y then isTrue (by rw [h]) else isFalse (by intro h'; cases h'; exact h rfl)
  | .error x, .error y => if h : x = y then isTrue (by rw [h]) else isFalse (by intro h'; cases h'; exact h rfl)
  | .ok _, .error _ => isFalse (by intro h; cases h)
  | .error _, .ok _ => isFalse (by intro h; cases h)

/-- `raise`. -/
abbrev raise {α : Type _} (e : PyErr) : Py α := .error e

/-- `if cond: raise e`. -/
def raiseIf (c : Prop) [Decidable c] (e : PyErr) : Py Unit := if c then .error e else .ok ()

/-- `assert cond`. -/
def pyAssert (c : Prop) [Decidable c] : Py Unit := if c then .ok () else .error .assertionError

theorem bind_ok {α β : Type _} (a : α) (f : α → Py β) : ((Except.ok a : Py α) >>= f) = f a := rfl

theorem bind_error {α β : Type _} (e : PyErr) (f : α → Py β) :
    ((Except.error e : Py α) >>= f) = .error e := rfl

theorem bind_eq_ok {α β : Type _} {x : Py α} {f : α → Py β} {b : β} :
    (x >>= f) = .ok b ↔ ∃ a, x = .ok a ∧ f a = .ok b := by
  cases x with
  | error e => simp [bind_error]
  | ok a => simp [bind_ok]

theorem bind_eq_error {α β : Type _} {x : Py α} {f : α → Py β} {e : PyErr} :
    (x >>= f) = .error e ↔ x = .error e ∨ ∃ a, x = .ok a ∧ f a = .error e := by
  cases x with
  | error e => simp [bind_error]
  | ok a => simp [bind_ok]

theorem pure_eq_ok {α : Type _} {a b : α} : (pure a : Py α) = .ok b ↔ a = b := by
  constructor
  · intro h; cases h; rfl
  · intro h; rw [h]; rfl

theorem pure_def {α : Type _} (a : α) : (pure a : Py α) = .ok a := rfl

theorem raiseIf_eq_ok {c : Prop} [Decidable c] {e : PyErr} {u : Unit} :
    raiseIf c e = .ok u ↔ ¬ c := by
  unfold raiseIf; split <;> simp_all

theorem pyAssert_eq_ok {c : Prop} [Decidable c] {u : Unit} :
    pyAssert c = .ok u ↔ c := by
  unfold pyAssert; split <;> simp_all

theorem raiseIf_false {c : Prop} [Decidable c] {e : PyErr} (h : ¬ c) : raiseIf c e = .ok () := by
  unfold raiseIf; simp [h]

theorem raiseIf_true {c : Prop} [Decidable c] {e : PyErr} (h : c) : raiseIf c e = .error e := by
  unfold raiseIf; simp [h]

theorem pyAssert_true {c : Prop} [Decidable c] (h : c) : pyAssert c = .ok () := by
  unfold pyAssert; simp [h]

/-- A `for` loop that collects one result per element and stops at the first exception. -/
def mapE {α β : Type _} (f : α → Py β) : List α → Py (List β)
  | [] => .ok []
  | a :: as => do
    let b ← f a
    let bs ← mapE f as
    return b :: bs

theorem mapE_nil {α β : Type _} (f : α → Py β) : mapE f [] = .ok [] := rfl

theorem mapE_cons {α β : Type _} (f : α → Py β) (a : α) (as : List α) :
    mapE f (a :: as) = (f a >>= fun b => mapE f as >>= fun bs => .ok (b :: bs)) := rfl

theorem mapE_cons_ok {α β : Type _} {f : α → Py β} {a : α} {as : List α} {r : List β} :
    mapE f (a :: as) = .ok r ↔ ∃ b bs, f a = .ok b ∧ mapE f as = .ok bs ∧ r = b :: bs := by
  rw [mapE_cons]
  simp only [bind_eq_ok, Except.ok.injEq]
  constructor
  · rintro ⟨b, hb, bs, hbs, rfl⟩; exact ⟨b, bs, hb, hbs, rfl⟩
  · rintro ⟨b, bs, hb, hbs, rfl⟩; exact ⟨b, hb, bs, hbs, rfl⟩

theorem mapE_length {α β : Type _} {f : α → Py β} : ∀ {as : List α} {bs : List β},
    mapE f as = .ok bs → bs.length = as.length
  | [], bs, h => by cases h; rfl
  | a :: as, r, h => by
    obtain ⟨b, bs, _, hbs, rfl⟩ := mapE_cons_ok.1 h
    simp [mapE_length hbs]

theorem mapE_ok_of_forall {α β : Type _} {f : α → Py β} {g : α → β} : ∀ {as : List α},
    (∀ a ∈ as, f a = .ok (g a)) → mapE f as = .ok (as.map g)
  | [], _ => rfl
  | a :: as, h => by
    rw [mapE_cons, h a (by simp), mapE_ok_of_forall (fun x hx => h x (by simp [hx]))]
    rfl

theorem mapE_getElem {α β : Type _} {f : α → Py β} : ∀ {as : List α} {bs : List β},
    mapE f as = .ok bs → ∀ i (h : i < as.length) (h' : i < bs.length), f as[i] = .ok bs[i]
  | [], _, _, i, h, _ => by simp at h
  | a :: as, r, hr, i, h, h' => by
    obtain ⟨b, bs, hb, hbs, rfl⟩ := mapE_cons_ok.1 hr
    cases i with
    | zero => simpa using hb
    | succ i =>
      simp only [List.getElem_cons_succ]
      exact mapE_getElem hbs i _ _

theorem mapE_append {α β : Type _} (f : α → Py β) (as as' : List α) :
    mapE f (as ++ as') = (mapE f as >>= fun b => mapE f as' >>= fun b' => .ok (b ++ b')) := by
  induction as with
  | nil =>
    simp only [List.nil_append, mapE_nil, bind_ok]
    cases mapE f as' <;> rfl
  | cons a as ih =>
    simp only [List.cons_append, mapE_cons, ih]
    cases f a with
    | error e => rfl
    | ok b =>
      simp only [bind_ok]
      cases mapE f as with
      | error e => rfl
      | ok bs =>
        simp only [bind_ok]
        cases mapE f as' <;> rfl

theorem mapE_map {α β γ : Type _} (f : β → Py γ) (g : α → β) (as : List α) :
    mapE f (as.map g) = mapE (fun a => f (g a)) as := by
  induction as with
  | nil => rfl
  | cons a as ih => simp [mapE_cons, ih]

theorem mapE_congr {α β : Type _} {f g : α → Py β} {as : List α} (h : ∀ a ∈ as, f a = g a) :
    mapE f as = mapE g as := by
  induction as with
  | nil => rfl
  | cons a as ih =>
    rw [mapE_cons, mapE_cons, h a (by simp), ih (fun x hx => h x (by simp [hx]))]

theorem mapE_range'_eq {α : Type _} {f : Nat → Py α} : ∀ {l : List α} {k : Nat},
    (∀ i (hi : i < l.length), f (k + i) = .ok l[i]) → mapE f (List.range' k l.length) = .ok l
  | [], _, _ => rfl
  | a :: l, k, h => by
    rw [List.length_cons, List.range'_succ, mapE_cons]
    have h0 := h 0 (by simp)
    simp only [Nat.add_zero, List.getElem_cons_zero] at h0
    rw [h0, bind_ok, mapE_range'_eq (l := l) (k := k + 1) (by
      intro i hi
      have := h (i + 1) (by simp; omega)
      rw [show k + 1 + i = k + (i + 1) by omega, this]
      simp), bind_ok]

/-- A loop over `range(n)` that produces the elements of a list of length `n`. -/
theorem mapE_range_eq {α : Type _} {f : Nat → Py α} {l : List α} {n : Nat} (hn : n = l.length)
    (h : ∀ i (hi : i < l.length), f i = .ok l[i]) : mapE f (List.range n) = .ok l := by
  subst hn
  rw [List.range_eq_range']
  exact mapE_range'_eq (by simpa using h)

/-- A loop whose body always produces `g a`. -/
theorem mapE_eq_map {α β : Type _} {f : α → Py β} {g : α → β} {P : α → Prop}
    (hf : ∀ a b, f a = .ok b ↔ P a ∧ b = g a) : ∀ (l : List α) (r : List β),
    mapE f l = .ok r ↔ (∀ a ∈ l, P a) ∧ r = l.map g
  | [], r => by simp [mapE_nil, eq_comm]
  | a :: l, r => by
    rw [mapE_cons_ok]
    constructor
    · rintro ⟨b, bs, h1, h2, rfl⟩
      obtain ⟨h3, rfl⟩ := (hf _ _).1 h1
      obtain ⟨h4, rfl⟩ := (mapE_eq_map hf _ _).1 h2
      exact ⟨by simpa using ⟨h3, h4⟩, rfl⟩
    · rintro ⟨h1, rfl⟩
      exact ⟨_, _, (hf _ _).2 ⟨h1 a (by simp), rfl⟩,
        (mapE_eq_map hf _ _).2 ⟨fun x hx => h1 x (by simp [hx]), rfl⟩, rfl⟩

theorem mapE_forall {α β : Type _} {f : α → Py β} {P : β → Prop} (hf : ∀ a b, f a = .ok b → P b) :
    ∀ {l : List α} {r : List β}, mapE f l = .ok r → ∀ b ∈ r, P b
  | [], r, h => by cases h; simp
  | a :: l, r, h => by
    obtain ⟨b, bs, h1, h2, rfl⟩ := mapE_cons_ok.1 h
    intro x hx
    rcases List.mem_cons.1 hx with rfl | hx
    · exact hf _ _ h1
    · exact mapE_forall hf h2 x hx

end Verif
