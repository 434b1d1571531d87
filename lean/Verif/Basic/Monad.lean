import Mathlib.Data.List.Forall2

/-!
# Effects: panics and state

Every function of the library that can panic, draw random numbers or call a
user supplied trait object is modelled in `M σ`: a state transformer over an
arbitrary world `σ` which may fail with an `Err`.
-/

namespace Verif

/-- The ways in which the Rust code can stop abnormally.  `user` stands for a
panic raised inside a user supplied component; `fuel` is not a behaviour of
the program: it marks that the model's loop was given too little fuel
(the Rust loop is still running). -/
inductive Err where
  /-- failed `assert!` / `assert_eq!` -/
  | assert
  /-- slice or vector index out of bounds -/
  | index
  /-- arithmetic overflow, checked build profile -/
  | arith
  /-- `unwrap` on `None` -/
  | unwrap
  /-- `Uniform::new` / `new_inclusive` on an invalid range -/
  | range
  /-- panic in user code -/
  | user
  /-- not a panic: the bounded unrolling of a `while` loop was exhausted -/
  | fuel
  deriving DecidableEq, Repr

/-- State transformers that may fail. -/
abbrev M (σ : Type) (α : Type) : Type := StateT σ (Except Err) α

namespace M

variable {σ α β γ : Type}

/-- Fail. -/
def fail (e : Err) : M σ α := fun _ => .error e

/-- `assert!(b)` -/
def assert (b : Bool) : M σ Unit := if b then pure () else fail .assert

/-- `xs[i]` on a vector: panics when out of bounds. -/
def index (xs : List α) (i : Nat) : M σ α :=
  match xs[i]? with
  | some a => pure a
  | none => fail .index

/-- `o.unwrap()` -/
def unwrap (o : Option α) : M σ α :=
  match o with
  | some a => pure a
  | none => fail .unwrap

/-- Left-to-right evaluation of `f` on every element, collecting the results
(`iter().map(..).collect()` with an effectful closure). -/
def mapL (f : α → M σ β) : List α → M σ (List β)
  | [] => pure []
  | a :: as => do
    let b ← f a
    let bs ← mapL f as
    pure (b :: bs)

/-- `for a in as { acc = f(acc, a) }` -/
def foldL (f : β → α → M σ β) : β → List α → M σ β
  | b, [] => pure b
  | b, a :: as => do
    let b' ← f b a
    foldL f b' as

/-- `(0..n).map(|_| m).collect()` -/
def replicate (n : Nat) (m : M σ α) : M σ (List α) :=
  match n with
  | 0 => pure []
  | n + 1 => do
    let a ← m
    let as ← replicate n m
    pure (a :: as)

/-- A computation without state that may panic. -/
def ofExcept (e : Except Err α) : M σ α := fun s =>
  match e with
  | .ok a => .ok (a, s)
  | .error e => .error e

/-- A pure state transformer. -/
def ofState (g : σ → α × σ) : M σ α := fun s => .ok (g s)

/-- Partial correctness: *if* `m` started in `s` returns, the result and the
final state satisfy `Q`. -/
def Post (m : M σ α) (s : σ) (Q : α → σ → Prop) : Prop :=
  ∀ a s', m s = .ok (a, s') → Q a s'

/-- Total correctness: `m` started in `s` returns and satisfies `Q`. -/
def Tot (m : M σ α) (s : σ) (Q : α → σ → Prop) : Prop :=
  ∃ a s', m s = .ok (a, s') ∧ Q a s'

/-- `m` started in `s` panics with error `e`. -/
def Fails (m : M σ α) (s : σ) (e : Err) : Prop := m s = .error e

/-- Executable check, used to run the model on concrete inputs: the run returns and its
result passes the test. -/
def okAnd (r : Except Err (α × σ)) (p : α → σ → Bool) : Bool :=
  match r with
  | .ok (a, s) => p a s
  | .error _ => false

theorem okAnd_iff {r : Except Err (α × σ)} {p : α → σ → Bool} :
    okAnd r p = true ↔ ∃ a s, r = .ok (a, s) ∧ p a s = true := by
  unfold okAnd
  cases r with
  | error e => simp
  | ok x => obtain ⟨a, s⟩ := x; simp

theorem pure_run (a : α) (s : σ) : (pure a : M σ α) s = .ok (a, s) := rfl

theorem fail_run (e : Err) (s : σ) : (fail e : M σ α) s = .error e := rfl

theorem bind_run (m : M σ α) (f : α → M σ β) (s : σ) :
    (m >>= f) s = match m s with
      | .ok (a, s') => f a s'
      | .error e => .error e := by
  show StateT.bind m f s = _
  unfold StateT.bind
  cases h : m s with
  | error e => rfl
  | ok p => cases p; rfl

theorem bind_eq_ok {m : M σ α} {f : α → M σ β} {s s'' : σ} {b : β} :
    (m >>= f) s = .ok (b, s'') ↔ ∃ a s', m s = .ok (a, s') ∧ f a s' = .ok (b, s'') := by
  rw [bind_run]
  cases h : m s with
  | error e => simp
  | ok p =>
    obtain ⟨a, s'⟩ := p
    constructor
    · intro h2; exact ⟨a, s', rfl, h2⟩
    · rintro ⟨a', s1, h1, h2⟩; cases h1; exact h2

theorem bind_eq_error {m : M σ α} {f : α → M σ β} {s : σ} {e : Err} :
    (m >>= f) s = .error e ↔
      m s = .error e ∨ ∃ a s', m s = .ok (a, s') ∧ f a s' = .error e := by
  rw [bind_run]
  cases h : m s with
  | error e' => simp
  | ok p =>
    obtain ⟨a, s'⟩ := p
    constructor
    · intro h2; exact .inr ⟨a, s', rfl, h2⟩
    · rintro (h1 | ⟨a', s1, h1, h2⟩)
      · cases h1
      · cases h1; exact h2

theorem pure_eq_ok {a b : α} {s s' : σ} :
    (pure a : M σ α) s = .ok (b, s') ↔ a = b ∧ s = s' := by
  rw [pure_run]; constructor
  · intro h; cases h; exact ⟨rfl, rfl⟩
  · rintro ⟨rfl, rfl⟩; rfl

theorem fail_eq_ok {e : Err} {b : α} {s s' : σ} :
    (fail e : M σ α) s = .ok (b, s') ↔ False := by
  simp [fail]

theorem assert_eq_ok {b : Bool} {u : Unit} {s s' : σ} :
    (assert b : M σ Unit) s = .ok (u, s') ↔ b = true ∧ s = s' := by
  unfold assert
  cases b
  · simp [fail]
  · simp only [↓reduceIte, true_and]
    rw [pure_eq_ok]
    constructor
    · exact fun h => h.2
    · exact fun h => ⟨rfl, h⟩

theorem index_eq_ok {xs : List α} {i : Nat} {a : α} {s s' : σ} :
    (index xs i : M σ α) s = .ok (a, s') ↔ xs[i]? = some a ∧ s = s' := by
  unfold index
  cases h : xs[i]? with
  | none => simp [fail]
  | some b => simp only [pure_eq_ok, Option.some.injEq]

theorem unwrap_eq_ok {o : Option α} {a : α} {s s' : σ} :
    (unwrap o : M σ α) s = .ok (a, s') ↔ o = some a ∧ s = s' := by
  unfold unwrap
  cases o with
  | none => simp [fail]
  | some b => simp only [pure_eq_ok, Option.some.injEq]

theorem ofExcept_eq_ok {e : Except Err α} {a : α} {s s' : σ} :
    (ofExcept e : M σ α) s = .ok (a, s') ↔ e = .ok a ∧ s = s' := by
  unfold ofExcept
  cases e with
  | error e => simp
  | ok b => simp

theorem ofState_eq_ok {g : σ → α × σ} {a : α} {s s' : σ} :
    (ofState g : M σ α) s = .ok (a, s') ↔ g s = (a, s') := by
  simp [ofState]

theorem mapL_nil_ok {f : α → M σ β} {bs : List β} {s s' : σ} :
    mapL f [] s = .ok (bs, s') ↔ bs = [] ∧ s = s' := by
  unfold mapL; rw [pure_eq_ok]; constructor
  · rintro ⟨rfl, rfl⟩; exact ⟨rfl, rfl⟩
  · rintro ⟨rfl, rfl⟩; exact ⟨rfl, rfl⟩

theorem mapL_cons_ok {f : α → M σ β} {a : α} {as : List α} {bs : List β} {s s' : σ} :
    mapL f (a :: as) s = .ok (bs, s') ↔
      ∃ b bs' s1, f a s = .ok (b, s1) ∧ mapL f as s1 = .ok (bs', s') ∧ bs = b :: bs' := by
  rw [mapL]
  simp only [bind_eq_ok, pure_eq_ok]
  constructor
  · rintro ⟨b, s1, h1, bs', s2, h2, rfl, rfl⟩; exact ⟨b, bs', s1, h1, h2, rfl⟩
  · rintro ⟨b, bs', s1, h1, h2, rfl⟩; exact ⟨b, s1, h1, bs', s', h2, rfl, rfl⟩

theorem foldL_nil_ok {f : β → α → M σ β} {b b' : β} {s s' : σ} :
    foldL f b [] s = .ok (b', s') ↔ b = b' ∧ s = s' := by
  unfold foldL; rw [pure_eq_ok]

theorem foldL_cons_ok {f : β → α → M σ β} {a : α} {as : List α} {b b' : β} {s s' : σ} :
    foldL f b (a :: as) s = .ok (b', s') ↔
      ∃ b1 s1, f b a s = .ok (b1, s1) ∧ foldL f b1 as s1 = .ok (b', s') := by
  rw [foldL, bind_eq_ok]

theorem replicate_zero_ok {m : M σ α} {as : List α} {s s' : σ} :
    replicate 0 m s = .ok (as, s') ↔ as = [] ∧ s = s' := by
  unfold replicate; rw [pure_eq_ok]; constructor
  · rintro ⟨rfl, rfl⟩; exact ⟨rfl, rfl⟩
  · rintro ⟨rfl, rfl⟩; exact ⟨rfl, rfl⟩

theorem replicate_succ_ok {n : Nat} {m : M σ α} {as : List α} {s s' : σ} :
    replicate (n + 1) m s = .ok (as, s') ↔
      ∃ a as' s1, m s = .ok (a, s1) ∧ replicate n m s1 = .ok (as', s') ∧ as = a :: as' := by
  rw [replicate]
  simp only [bind_eq_ok, pure_eq_ok]
  constructor
  · rintro ⟨b, s1, h1, bs', s2, h2, rfl, rfl⟩; exact ⟨b, bs', s1, h1, h2, rfl⟩
  · rintro ⟨b, bs', s1, h1, h2, rfl⟩; exact ⟨b, s1, h1, bs', s', h2, rfl, rfl⟩

/-- Invariant rule for `mapL`: relation between inputs and outputs. -/
theorem mapL_forall₂ {f : α → M σ β} {R : α → β → Prop} :
    ∀ {as : List α} {bs : List β} {s s' : σ},
      (∀ a ∈ as, ∀ s b s', f a s = .ok (b, s') → R a b) →
      mapL f as s = .ok (bs, s') → List.Forall₂ R as bs := by
  intro as
  induction as with
  | nil => intro bs s s' _ h; rw [mapL_nil_ok] at h; rw [h.1]; exact .nil
  | cons a as ih =>
    intro bs s s' hR h
    rw [mapL_cons_ok] at h
    obtain ⟨b, bs', s1, h1, h2, rfl⟩ := h
    exact .cons (hR a (by simp) _ _ _ h1) (ih (fun a ha => hR a (by simp [ha])) h2)

theorem mapL_length {f : α → M σ β} : ∀ {as : List α} {bs : List β} {s s' : σ},
    mapL f as s = .ok (bs, s') → bs.length = as.length := by
  intro as
  induction as with
  | nil => intro bs s s' h; rw [mapL_nil_ok] at h; simp [h.1]
  | cons a as ih =>
    intro bs s s' h
    rw [mapL_cons_ok] at h
    obtain ⟨b, bs', s1, h1, h2, rfl⟩ := h
    simp [ih h2]

/-- Every output of `mapL` comes from some run of `f` on an input. -/
theorem mapL_mem {f : α → M σ β} : ∀ {as : List α} {bs : List β} {s s' : σ},
    mapL f as s = .ok (bs, s') →
    ∀ b ∈ bs, ∃ a ∈ as, ∃ s1 s2, f a s1 = .ok (b, s2) := by
  intro as
  induction as with
  | nil => intro bs s s' h; rw [mapL_nil_ok] at h; simp [h.1]
  | cons a as ih =>
    intro bs s s' h
    rw [mapL_cons_ok] at h
    obtain ⟨b, bs', s1, h1, h2, rfl⟩ := h
    intro b0 hb
    rcases List.mem_cons.1 hb with rfl | hb
    · exact ⟨a, by simp, s, s1, h1⟩
    · obtain ⟨a', ha, r⟩ := ih h2 b0 hb
      exact ⟨a', by simp [ha], r⟩

/-- Invariant rule for `mapL` on the state. -/
theorem mapL_state {f : α → M σ β} {I : σ → Prop} :
    ∀ {as : List α} {bs : List β} {s s' : σ},
      (∀ a ∈ as, ∀ s b s', I s → f a s = .ok (b, s') → I s') →
      I s → mapL f as s = .ok (bs, s') → I s' := by
  intro as
  induction as with
  | nil => intro bs s s' _ hI h; rw [mapL_nil_ok] at h; exact h.2 ▸ hI
  | cons a as ih =>
    intro bs s s' hR hI h
    rw [mapL_cons_ok] at h
    obtain ⟨b, bs', s1, h1, h2, rfl⟩ := h
    exact ih (fun a ha => hR a (by simp [ha])) (hR a (by simp) _ _ _ hI h1) h2

/-- Invariant rule for `foldL`. -/
theorem foldL_inv {f : β → α → M σ β} {I : β → σ → Prop} :
    ∀ {as : List α} {b b' : β} {s s' : σ},
      (∀ a ∈ as, ∀ b s b' s', I b s → f b a s = .ok (b', s') → I b' s') →
      I b s → foldL f b as s = .ok (b', s') → I b' s' := by
  intro as
  induction as with
  | nil => intro b b' s s' _ hI h; rw [foldL_nil_ok] at h; obtain ⟨rfl, rfl⟩ := h; exact hI
  | cons a as ih =>
    intro b b' s s' hR hI h
    rw [foldL_cons_ok] at h
    obtain ⟨b1, s1, h1, h2⟩ := h
    exact ih (fun a ha => hR a (by simp [ha])) (hR a (by simp) _ _ _ _ hI h1) h2

theorem replicate_length {m : M σ α} : ∀ {n : Nat} {as : List α} {s s' : σ},
    replicate n m s = .ok (as, s') → as.length = n := by
  intro n
  induction n with
  | zero => intro as s s' h; rw [replicate_zero_ok] at h; simp [h.1]
  | succ n ih =>
    intro as s s' h
    rw [replicate_succ_ok] at h
    obtain ⟨a, as', s1, h1, h2, rfl⟩ := h
    simp [ih h2]

theorem replicate_mem {m : M σ α} : ∀ {n : Nat} {as : List α} {s s' : σ},
    replicate n m s = .ok (as, s') → ∀ a ∈ as, ∃ s1 s2, m s1 = .ok (a, s2) := by
  intro n
  induction n with
  | zero => intro as s s' h; rw [replicate_zero_ok] at h; simp [h.1]
  | succ n ih =>
    intro as s s' h
    rw [replicate_succ_ok] at h
    obtain ⟨a, as', s1, h1, h2, rfl⟩ := h
    intro b hb
    rcases List.mem_cons.1 hb with rfl | hb
    · exact ⟨s, s1, h1⟩
    · exact ih h2 b hb

/-- Total-correctness rule for `replicate`. -/
theorem replicate_tot {m : M σ α} {Q : α → Prop} (hm : ∀ s, Tot m s (fun a _ => Q a)) :
    ∀ (n : Nat) (s : σ), Tot (replicate n m) s (fun as _ => as.length = n ∧ ∀ a ∈ as, Q a) := by
  intro n
  induction n with
  | zero => intro s; exact ⟨[], s, rfl, rfl, by simp⟩
  | succ n ih =>
    intro s
    obtain ⟨a, s1, h1, q1⟩ := hm s
    obtain ⟨as, s2, h2, q2, q3⟩ := ih s1
    refine ⟨a :: as, s2, replicate_succ_ok.2 ⟨a, as, s1, h1, h2, rfl⟩, by simp [q2], ?_⟩
    intro b hb
    rcases List.mem_cons.1 hb with rfl | hb
    · exact q1
    · exact q3 b hb

/-- Total-correctness rule for `mapL`. -/
theorem mapL_tot {f : α → M σ β} {R : α → β → Prop} :
    ∀ (as : List α) (s : σ), (∀ a ∈ as, ∀ s, Tot (f a) s (fun b _ => R a b)) →
      Tot (mapL f as) s (fun bs _ => List.Forall₂ R as bs) := by
  intro as
  induction as with
  | nil => intro s _; exact ⟨[], s, rfl, .nil⟩
  | cons a as ih =>
    intro s h
    obtain ⟨b, s1, h1, q1⟩ := h a (by simp) s
    obtain ⟨bs, s2, h2, q2⟩ := ih s1 (fun a ha => h a (by simp [ha]))
    exact ⟨b :: bs, s2, mapL_cons_ok.2 ⟨b, bs, s1, h1, h2, rfl⟩, .cons q1 q2⟩

end M

end Verif
