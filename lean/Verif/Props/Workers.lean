import Mathlib.Data.List.Perm.Subperm
import Mathlib.Data.List.Nodup
import Mathlib.Tactic.Ring
import Verif.Spec.Workers

/-!
# C76: the statistics programs merge the data of their threads
-/

namespace Verif.Props.Workers

open Verif Stats Verif.Workers

variable {σ T : Type}

theorem merged_nil : Merged ([] : List (Data T)) Data.new := ⟨rfl, rfl, rfl⟩

theorem merged_single (d : Data T) : Merged [d] d := ⟨by simp, by simp, by simp⟩

theorem merged_append {as bs : List (Data T)} {a b : Data T} (ha : Merged as a) (hb : Merged bs b) :
    Merged (as ++ bs) (a.unite b) := by
  refine ⟨?_, ?_, ?_⟩
  · rw [List.flatMap_append, ← ha.results, ← hb.results]; rfl
  · rw [List.flatMap_append, ← ha.convergence, ← hb.convergence]; rfl
  · rw [List.flatMap_append, ← ha.calls, ← hb.calls]; rfl

theorem forall2_imp {α β : Type} {R S : α → β → Prop} {as : List α} {bs : List β} (h : List.Forall₂ R as bs)
    (hi : ∀ a ∈ as, ∀ b, R a b → S a b) : List.Forall₂ S as bs := by
  induction h with
  | nil => exact .nil
  | cons h1 _ ih => exact .cons (hi _ List.mem_cons_self _ h1) (ih fun a ha => hi a (List.mem_cons_of_mem _ ha))

/-- The state of the main thread; `k` messages have been received. -/
def MainInv (P : Program σ T) (y : Sys σ T) (order : List Nat) (ds : Nat → List (Data T)) (k : Nat) : Prop :=
  match y.main with
  | .spawning n => k = 0 ∧ y.threads.length = n ∧ n ≤ P.cpu
  | .receiving n acc => k = n ∧ n ≤ P.cpu ∧ y.threads.length = P.cpu ∧ Merged ((order.take n).flatMap ds) acc
  | .finished acc => k = P.cpu ∧ y.threads.length = P.cpu ∧ Merged ((order.take P.cpu).flatMap ds) acc
  | .panicked => False

/-- The invariant of all executions; `order` are the threads in the order in which they have sent their data. -/
structure Inv (P : Program σ T) (y : Sys σ T) (order : List Nat) (ds : Nat → List (Data T)) (k : Nat) : Prop where
  nodup : order.Nodup
  sent_iff : ∀ i, i ∈ order ↔ y.threads[i]? = some .sent
  sent : ∀ i ∈ order, (ds i).length = P.runCount ∧ ∃ s', Consecutive P (P.seed i) (ds i) s'
  running : ∀ i left acc s, y.threads[i]? = some (.running left acc s) →
    ∃ cs, Consecutive P (P.seed i) cs s ∧ cs.length + left = P.runCount ∧ Merged cs acc
  queue : List.Forall₂ (fun i d => Merged (ds i) d) (order.drop k) y.queue
  received : k ≤ order.length
  main : MainInv P y order ds k

theorem Inv.lt {P : Program σ T} {y : Sys σ T} {order ds k} (h : Inv P y order ds k) {i : Nat} (hi : i ∈ order) :
    i < y.threads.length := by
  have := (h.sent_iff i).1 hi
  exact (List.getElem?_eq_some_iff.1 this).1

/-- A thread changes that has not sent, and goes on running or dies. -/
theorem Inv.setThread {P : Program σ T} {m : Main T} {ts : List (Thread σ T)} {q : List (Data T)} {order ds k}
    (h : Inv P ⟨m, ts, q⟩ order ds k) {i : Nat} {t : Thread σ T} (hi : ts[i]? ≠ some .sent) (ht : t ≠ .sent)
    (hr : ∀ left acc s, t = .running left acc s → ∃ cs, Consecutive P (P.seed i) cs s ∧ cs.length + left = P.runCount ∧
      Merged cs acc) : Inv P ⟨m, ts.set i t, q⟩ order ds k where
  nodup := h.nodup
  sent_iff := fun j => by
    rw [h.sent_iff j]
    show ts[j]? = _ ↔ (ts.set i t)[j]? = _
    rw [List.getElem?_set]
    split
    · rename_i hij
      subst hij
      constructor
      · intro h1; exact absurd h1 hi
      · intro h1
        split at h1
        · cases h1; exact absurd rfl ht
        · cases h1
    · exact Iff.rfl
  sent := h.sent
  running := fun j left acc s hj => by
    have hj1 : (ts.set i t)[j]? = some (.running left acc s) := hj
    rw [List.getElem?_set] at hj1
    by_cases hij : i = j
    · subst hij
      rw [if_pos rfl] at hj1
      split at hj1
      · cases hj1; exact hr _ _ _ rfl
      · cases hj1
    · rw [if_neg hij] at hj1
      exact h.running j left acc s hj1
  queue := h.queue
  received := h.received
  main := by
    have := h.main
    unfold MainInv at this ⊢
    simpa using this

theorem inv_start (P : Program σ T) : Inv P .start [] (fun _ => []) 0 where
  nodup := List.nodup_nil
  sent_iff := fun i => by simp [Sys.start]
  sent := fun i hi => absurd hi List.not_mem_nil
  running := fun i left acc s h => by simp [Sys.start] at h
  queue := .nil
  received := Nat.le_refl 0
  main := ⟨rfl, rfl, Nat.zero_le _⟩

theorem Inv.noRunning {P : Program σ T} {m : Main T} {ts : List (Thread σ T)} {q : List (Data T)} {order ds k}
    (h : Inv P ⟨m, ts, q⟩ order ds k) (he : m.ended = true) (i : Nat) (hi : i < ts.length) : ts[i]? = some .sent := by
  have hm := h.main
  have hlen : ts.length ≤ order.length := by
    cases m with
    | finished acc =>
      obtain ⟨h1, h2, -⟩ := hm
      have h2 : ts.length = P.cpu := h2
      have := h.received
      omega
    | panicked => exact hm.elim
    | spawning n => cases he
    | receiving n acc => cases he
  refine (h.sent_iff i).1 ?_
  have hsub : order ⊆ List.range ts.length := fun j hj => List.mem_range.2 (h.lt hj)
  have hperm := (h.nodup.subperm hsub).perm_of_length_le (by rw [List.length_range]; exact hlen)
  exact hperm.mem_iff.2 (List.mem_range.2 hi)

theorem inv_step {P : Program σ T} {y y' : Sys σ T} {order ds k} (h : Inv P y order ds k) (hs : Step P y y') :
    ∃ order' ds' k', Inv P y' order' ds' k' := by
  cases hs with
  | spawn n ts q hn =>
    obtain ⟨rfl, hl, -⟩ := h.main
    have hl : ts.length = n := hl
    refine ⟨order, ds, 0, h.nodup, ?_, h.sent, ?_, h.queue, h.received, rfl, ?_, hn⟩
    · intro i
      rw [h.sent_iff i]
      show ts[i]? = _ ↔ (ts ++ _)[i]? = _
      rw [List.getElem?_append]
      split
      · exact Iff.rfl
      · rename_i hi
        rw [List.getElem?_eq_none (by omega)]
        constructor
        · intro h; cases h
        · intro h
          cases hj : i - ts.length with
          | zero => rw [hj] at h; cases h
          | succ j => rw [hj] at h; simp at h
    · intro i left acc s hi
      have hi : (ts ++ _)[i]? = _ := hi
      rw [List.getElem?_append] at hi
      split at hi
      · exact h.running i left acc s hi
      · cases hj : i - ts.length with
        | zero =>
          rw [hj] at hi
          cases hi
          have : i = n := by omega
          subst this
          exact ⟨[], .nil, by simp, merged_nil⟩
        | succ j => rw [hj] at hi; simp at hi
    · show (ts ++ _).length = _
      simp [hl]
  | spawned n ts q hn =>
    obtain ⟨rfl, hl, hle⟩ := h.main
    have hl : ts.length = n := hl
    exact ⟨order, ds, 0, h.nodup, h.sent_iff, h.sent, h.running, h.queue, h.received, rfl, Nat.zero_le _,
      by show ts.length = _; omega, merged_nil⟩
  | run m ts q i left acc s d s' hi hd =>
    obtain ⟨cs, h1, h2, h3⟩ := h.running i _ _ _ hi
    refine ⟨order, ds, k, h.setThread (by rw [hi]; simp) (by simp) ?_⟩
    intro l a u he
    cases he
    exact ⟨cs ++ [d], .snoc h1 hd, by rw [List.length_append, List.length_singleton]; omega, merged_append h3 (merged_single d)⟩
  | die m ts q i left acc s hi hp =>
    exact ⟨order, ds, k, h.setThread (by rw [hi]; simp) (by simp) (by intro l a u he; cases he)⟩
  | sendFail m ts q i acc s hi he =>
    have := h.noRunning he i (List.getElem?_eq_some_iff.1 hi).1
    rw [hi] at this
    cases this
  | send m ts q i acc s hi he =>
    obtain ⟨cs, h1, h2, h3⟩ := h.running i _ _ _ hi
    have hni : i ∉ order := by
      intro hm
      rw [(h.sent_iff i).1 hm] at hi
      cases hi
    have hlt : i < ts.length := (List.getElem?_eq_some_iff.1 hi).1
    have hne : ∀ j ∈ order, j ≠ i := fun j hj he => hni (he ▸ hj)
    have hds : ∀ l : List Nat, (∀ j ∈ l, j ∈ order) →
        l.flatMap (fun j => if j = i then cs else ds j) = l.flatMap ds := by
      intro l hl
      refine List.flatMap_congr fun j hj => ?_
      rw [if_neg (hne j (hl j hj))]
    refine ⟨order ++ [i], fun j => if j = i then cs else ds j, k, ?_, ?_, ?_, ?_, ?_, ?_, ?_⟩
    · rw [List.nodup_append]
      exact ⟨h.nodup, List.nodup_singleton i, fun a ha b hb => by rw [List.mem_singleton.1 hb]; exact hne a ha⟩
    · intro j
      rw [List.mem_append, h.sent_iff j, List.mem_singleton]
      show ts[j]? = _ ∨ _ ↔ (ts.set i .sent)[j]? = _
      rw [List.getElem?_set]
      by_cases hij : i = j
      · subst hij
        simp [hlt]
      · simp only [hij, if_false]
        constructor
        · rintro (h | h)
          · exact h
          · exact absurd h.symm hij
        · exact .inl
    · intro j hj
      rw [List.mem_append, List.mem_singleton] at hj
      rcases hj with hj | rfl
      · simp only [hne j hj, if_false]
        exact h.sent j hj
      · simp only [if_true]
        exact ⟨by omega, s, h1⟩
    · intro j left acc s hj
      have hj1 : (ts.set i .sent)[j]? = some (.running left acc s) := hj
      rw [List.getElem?_set] at hj1
      by_cases hij : i = j
      · rw [if_pos hij] at hj1
        split at hj1 <;> cases hj1
      · rw [if_neg hij] at hj1
        exact h.running j left acc s hj1
    · show List.Forall₂ _ _ (q ++ [acc])
      rw [List.drop_append_of_le_length h.received]
      refine List.rel_append ?_ (.cons (by simpa using h3) .nil)
      refine forall2_imp h.queue ?_
      intro j hj d hd
      rw [if_neg (hne j (List.mem_of_mem_drop hj))]
      exact hd
    · rw [List.length_append]
      have := h.received
      omega
    · have hm := h.main
      have hr := h.received
      cases m with
      | spawning n => exact ⟨hm.1, by show (ts.set i _).length = n; rw [List.length_set]; exact hm.2.1, hm.2.2⟩
      | receiving n a =>
        obtain ⟨rfl, m1, m2, m3⟩ := hm
        refine ⟨rfl, m1, by show (ts.set i _).length = P.cpu; rw [List.length_set]; exact m2, ?_⟩
        rw [List.take_append_of_le_length hr, hds _ fun j hj => List.mem_of_mem_take hj]
        exact m3
      | finished a => cases he
      | panicked => cases he
  | recv n acc ts d q hn =>
    obtain ⟨rfl, m1, m2, m3⟩ := h.main
    have hq := h.queue
    have hr := h.received
    generalize hdrop : order.drop k = rest at hq
    cases hq with
    | @cons i _ rest' _ hid hq =>
      have hlt : k < order.length := by
        by_contra hge
        rw [List.drop_eq_nil_of_le (by omega)] at hdrop
        cases hdrop
      have hcons := List.drop_eq_getElem_cons hlt
      rw [hdrop] at hcons
      injection hcons with h1 h2
      refine ⟨order, ds, k + 1, h.nodup, h.sent_iff, h.sent, h.running, by rw [← h2]; exact hq, hlt, rfl, hn, m2, ?_⟩
      rw [List.take_add_one, List.flatMap_append, List.getElem?_eq_getElem hlt, ← h1]
      exact merged_append m3 (by simpa using hid)
  | recvFail n acc ts hn hno => exact absurd (.inl rfl) hno
  | finish n acc ts q hn =>
    obtain ⟨rfl, m1, m2, m3⟩ := h.main
    have : k = P.cpu := by omega
    subst this
    exact ⟨order, ds, P.cpu, h.nodup, h.sent_iff, h.sent, h.running, h.queue, h.received, rfl, m2, m3⟩

theorem inv_steps {P : Program σ T} {n : Nat} {y : Sys σ T} (h : Steps P n .start y) : ∃ order ds k, Inv P y order ds k := by
  generalize hy : Sys.start = y0 at h
  induction h with
  | refl y => subst hy; exact ⟨_, _, _, inv_start P⟩
  | snoc _ hs ih =>
    obtain ⟨order, ds, k, hi⟩ := ih hy
    exact inv_step hi hs

/-- C76: whatever the scheduler does, when the main thread has received everything, its data are those of all threads, merged in
some order of the threads; each thread has done all its runs as if it were alone. -/
theorem C76_merged (P : Program σ T) (n : Nat) (y : Sys σ T) (h : Steps P n .start y) (acc : Data T)
    (hf : y.main = .finished acc) : ∃ order, order.Perm (List.range P.cpu) ∧ MergedThreads P order acc := by
  obtain ⟨order, ds, k, hi⟩ := inv_steps h
  have hm := hi.main
  unfold MainInv at hm
  rw [hf] at hm
  obtain ⟨rfl, m2, m3⟩ := hm
  have hsub : order ⊆ List.range P.cpu := fun j hj => List.mem_range.2 (m2 ▸ hi.lt hj)
  have hperm := (hi.nodup.subperm hsub).perm_of_length_le (by rw [List.length_range]; exact hi.received)
  have hlen : order.length = P.cpu := by rw [hperm.length_eq, List.length_range]
  refine ⟨order, hperm, ds, hi.sent, ?_⟩
  rwa [← hlen, List.take_length] at m3

/-- C76: neither `recv().unwrap()` nor `send().unwrap()` panics: the main thread does not, and a thread that is dead has had a
panic in a run. -/
theorem C76_unwrap (P : Program σ T) (n : Nat) (y : Sys σ T) (h : Steps P n .start y) :
    y.main ≠ .panicked ∧ ∀ (i : Nat) (acc : Data T) (s : σ), y.threads[i]? = some (.running 0 acc s) → y.main.ended = false := by
  obtain ⟨order, ds, k, hi⟩ := inv_steps h
  refine ⟨?_, ?_⟩
  · intro hp
    have hm := hi.main
    unfold MainInv at hm
    rw [hp] at hm
    exact hm
  · intro i acc s hr
    by_contra hne
    have he : y.main.ended = true := by simpa using hne
    have := Inv.noRunning (m := y.main) (ts := y.threads) (q := y.queue) hi he i (List.getElem?_eq_some_iff.1 hr).1
    rw [hr] at this
    cases this

/-! ## Termination -/

/-- The steps a thread has to go. -/
def threadTodo : Thread σ T → Nat
  | .running left _ _ => left + 1
  | _ => 0

/-- The steps the main thread has to go, with those of the threads it has not started yet. -/
def mainTodo (P : Program σ T) : Main T → Nat
  | .spawning n => (P.cpu - n) * (P.runCount + 2) + P.cpu + 2
  | .receiving n _ => P.cpu - n + 1
  | _ => 0

def sysTodo (P : Program σ T) (y : Sys σ T) : Nat := mainTodo P y.main + (y.threads.map threadTodo).sum

theorem todo_set {ts : List (Thread σ T)} {i : Nat} {t t' : Thread σ T} (h : ts[i]? = some t) :
    ((ts.set i t').map threadTodo).sum + threadTodo t = (ts.map threadTodo).sum + threadTodo t' := by
  induction ts generalizing i with
  | nil => simp at h
  | cons a ts ih =>
    cases i with
    | zero =>
      simp only [List.getElem?_cons_zero, Option.some.injEq] at h
      subst h
      simp only [List.set_cons_zero, List.map_cons, List.sum_cons]
      omega
    | succ i =>
      simp only [List.getElem?_cons_succ] at h
      have := ih h
      simp only [List.set_cons_succ, List.map_cons, List.sum_cons]
      omega

theorem todo_step {P : Program σ T} {y y' : Sys σ T} (h : Step P y y') : sysTodo P y' + 1 ≤ sysTodo P y := by
  unfold sysTodo
  cases h with
  | spawn n ts q hn =>
    simp only [mainTodo, List.map_append, List.sum_append, List.map_cons, List.map_nil, List.sum_cons, List.sum_nil,
      threadTodo]
    have : P.cpu - n = P.cpu - (n + 1) + 1 := by omega
    rw [this, Nat.add_mul]
    omega
  | spawned n ts q hn =>
    simp only [mainTodo]
    have : P.cpu - n = 0 := by omega
    rw [this]
    omega
  | run m ts q i left acc s d s' hi hd =>
    have := todo_set (t' := .running left (acc.unite d) s') hi
    simp only [threadTodo] at this ⊢
    omega
  | die m ts q i left acc s hi hp =>
    have := todo_set (t' := .dead) hi
    simp only [threadTodo] at this ⊢
    omega
  | send m ts q i acc s hi he =>
    have := todo_set (t' := .sent) hi
    simp only [threadTodo] at this ⊢
    omega
  | sendFail m ts q i acc s hi he =>
    have := todo_set (t' := .dead) hi
    simp only [threadTodo] at this ⊢
    omega
  | recv n acc ts d q hn => simp only [mainTodo]; omega
  | recvFail n acc ts hn hno => simp only [mainTodo]; omega
  | finish n acc ts q hn => simp only [mainTodo]; omega

theorem todo_steps {P : Program σ T} {n : Nat} {y y' : Sys σ T} (h : Steps P n y y') :
    n + sysTodo P y' ≤ sysTodo P y := by
  induction h with
  | refl y => omega
  | snoc _ hs ih =>
    have := todo_step hs
    omega

theorem todo_start (P : Program σ T) : sysTodo P .start = P.cpu * (P.runCount + 3) + 2 := by
  simp only [sysTodo, Sys.start, mainTodo, List.map_nil, List.sum_nil, Nat.sub_zero]
  ring

/-- C76: no execution has more than this number of steps. -/
theorem C76_bounded (P : Program σ T) (n : Nat) (y : Sys σ T) (h : Steps P n .start y) :
    n ≤ P.cpu * (P.runCount + 3) + 2 := by
  have := todo_steps h
  rw [todo_start] at this
  omega

theorem no_dead {P : Program σ T} (hP : P.Safe) {n : Nat} {y : Sys σ T} (h : Steps P n .start y) :
    (∀ i : Nat, y.threads[i]? ≠ some .dead) ∧ n + sysTodo P y = P.cpu * (P.runCount + 3) + 2 := by
  generalize hy : Sys.start = y0 at h
  induction h with
  | refl y =>
    subst hy
    refine ⟨by simp [Sys.start], ?_⟩
    rw [todo_start]; omega
  | @snoc n y0 y y' h hs ih =>
    subst hy
    obtain ⟨ih, htodo⟩ := ih rfl
    obtain ⟨order, ds, k, hi⟩ := inv_steps h
    have upd : ∀ {ts : List (Thread σ T)} {i : Nat} {t : Thread σ T}, (∀ j : Nat, ts[j]? ≠ some .dead) → t ≠ .dead →
        ∀ j : Nat, (ts.set i t)[j]? ≠ some .dead := by
      intro ts i t h1 h2 j h3
      rw [List.getElem?_set] at h3
      split at h3
      · split at h3
        · cases h3; exact h2 rfl
        · cases h3
      · exact h1 j h3
    cases hs with
    | spawn m ts q hm =>
      refine ⟨?_, ?_⟩
      · intro j hj
        have hj : (ts ++ _)[j]? = _ := hj
        rw [List.getElem?_append] at hj
        split at hj
        · exact ih j hj
        · cases hl : j - ts.length with
          | zero => rw [hl] at hj; cases hj
          | succ l => rw [hl] at hj; simp at hj
      · simp only [sysTodo, mainTodo, List.map_append, List.sum_append, List.map_cons, List.map_nil, List.sum_cons,
          List.sum_nil, threadTodo] at htodo ⊢
        have : P.cpu - m = P.cpu - (m + 1) + 1 := by omega
        rw [this, Nat.add_mul] at htodo
        omega
    | spawned m ts q hm =>
      refine ⟨ih, ?_⟩
      simp only [sysTodo, mainTodo] at htodo ⊢
      have : P.cpu - m = 0 := by omega
      rw [this] at htodo
      omega
    | run m ts q i left acc s d s' hj hd =>
      refine ⟨upd ih (by simp), ?_⟩
      have := todo_set (t' := .running left (acc.unite d) s') hj
      simp only [sysTodo, threadTodo] at this htodo ⊢
      omega
    | die m ts q i left acc s hi hp => exact absurd hp (hP s).2
    | send m ts q i acc s hj he =>
      refine ⟨upd ih (by simp), ?_⟩
      have := todo_set (t' := .sent) hj
      simp only [sysTodo, threadTodo] at this htodo ⊢
      omega
    | sendFail m ts q i acc s hr he =>
      have := hi.noRunning he i (List.getElem?_eq_some_iff.1 hr).1
      rw [hr] at this
      cases this
    | recv m acc ts d q hm =>
      refine ⟨ih, ?_⟩
      simp only [sysTodo, mainTodo] at htodo ⊢
      omega
    | recvFail m acc ts hm hno => exact absurd (.inl rfl) hno
    | finish m acc ts q hm =>
      refine ⟨ih, ?_⟩
      simp only [sysTodo, mainTodo] at htodo ⊢
      obtain ⟨rfl, m1, -, -⟩ := hi.main
      omega

/-- A thread that has neither sent nor died, when the main thread waits in vain. -/
theorem waiting {P : Program σ T} {n : Nat} {acc : Data T} {ts : List (Thread σ T)} {order ds k}
    (h : Inv P ⟨.receiving n acc, ts, []⟩ order ds k) (hn : n < P.cpu) : ∃ i : Nat, ∃ t, ts[i]? = some t ∧ t ≠ .sent := by
  obtain ⟨rfl, m1, m2, m3⟩ := h.main
  have m2 : ts.length = P.cpu := m2
  have hq := h.queue
  generalize hd : order.drop k = rest at hq
  cases hq
  have hlen : order.length ≤ k := by rwa [List.drop_eq_nil_iff] at hd
  by_contra hno
  have hall : ∀ i < P.cpu, i ∈ order := by
    intro i hi
    rw [h.sent_iff i]
    by_contra hne
    have hlt : i < ts.length := by omega
    exact hno ⟨i, ts[i], List.getElem?_eq_getElem hlt, fun he => hne (by
      show ts[i]? = _
      rw [List.getElem?_eq_getElem hlt, he])⟩
  have hsub : List.range P.cpu ⊆ order := fun i hi => hall i (List.mem_range.1 hi)
  have := (List.nodup_range.subperm hsub).length_le
  rw [List.length_range] at this
  omega

/-- C76: if each run ends and none panics, the program cannot get stuck before the main thread has received everything, and gets
there after exactly this number of steps. -/
theorem C76_ends (P : Program σ T) (hP : P.Safe) (n : Nat) (y : Sys σ T) (h : Steps P n .start y) :
    (Stuck P y ↔ ∃ acc, y.main = .finished acc) ∧
    (Stuck P y ↔ n = P.cpu * (P.runCount + 3) + 2) := by
  obtain ⟨hnd, htodo⟩ := no_dead hP h
  obtain ⟨order, ds, k, hi⟩ := inv_steps h
  have h1 : Stuck P y → ∃ acc, y.main = .finished acc := by
    intro hst
    obtain ⟨m, ts, q⟩ := y
    cases m with
    | spawning j =>
      by_cases hj : j < P.cpu
      · exact absurd (Step.spawn j ts q hj) (hst _)
      · exact absurd (Step.spawned j ts q hj) (hst _)
    | receiving j acc =>
      by_cases hj : j < P.cpu
      swap
      · exact absurd (Step.finish j acc ts q hj) (hst _)
      cases q with
      | cons d q => exact absurd (Step.recv j acc ts d q hj) (hst _)
      | nil =>
        obtain ⟨i, t, ht, hns⟩ := waiting hi hj
        cases t with
        | sent => exact absurd rfl hns
        | dead => exact absurd ht (hnd i)
        | running left a s =>
          cases left with
          | zero => exact absurd (Step.send _ ts [] i a s ht rfl) (hst _)
          | succ left =>
            obtain ⟨d, s', hd⟩ := (hP s).1
            exact absurd (Step.run _ ts [] i left a s d s' ht hd) (hst _)
    | finished acc => exact ⟨acc, rfl⟩
    | panicked => exact hi.main.elim
  have h2 : (∃ acc, y.main = .finished acc) → sysTodo P y = 0 := by
    rintro ⟨acc, hf⟩
    obtain ⟨m, ts, q⟩ := y
    have hf : m = .finished acc := hf
    subst hf
    have hall : ∀ t ∈ ts, threadTodo t = 0 := by
      intro t ht
      obtain ⟨i, hlt, rfl⟩ := List.getElem_of_mem ht
      have := hi.noRunning rfl i hlt
      rw [List.getElem?_eq_getElem hlt] at this
      injection this with this
      rw [this]; rfl
    simp only [sysTodo, mainTodo]
    have : ts.map threadTodo = ts.map (fun _ => 0) := List.map_congr_left hall
    rw [this]
    simp
  have h3 : sysTodo P y = 0 → Stuck P y := by
    intro h0 y' hs
    have := todo_step hs
    omega
  refine ⟨⟨h1, fun hf => h3 (h2 hf)⟩, ⟨fun hst => ?_, fun he => h3 (by omega)⟩⟩
  have := h2 (h1 hst)
  omega

theorem steps_trans {P : Program σ T} {n m : Nat} {y y' y'' : Sys σ T} (h1 : Steps P n y y') (h2 : Steps P m y' y'') :
    Steps P (n + m) y y'' := by
  induction h2 with
  | refl y => exact h1
  | snoc _ hs ih => exact .snoc (ih h1) hs

theorem dead_stays {P : Program σ T} {y y' : Sys σ T} (hs : Step P y y') {i : Nat} (hi : y.threads[i]? = some .dead) :
    y'.threads[i]? = some .dead := by
  have upd : ∀ {ts : List (Thread σ T)} {j : Nat} {t t' : Thread σ T}, ts[i]? = some .dead → ts[j]? = some t' → t' ≠ .dead →
      (ts.set j t)[i]? = some .dead := by
    intro ts j t t' h1 h2 h3
    rw [List.getElem?_set]
    by_cases hij : j = i
    · subst hij
      rw [h1] at h2
      cases h2
      exact absurd rfl h3
    · rw [if_neg hij]; exact h1
  cases hs with
  | spawn n ts q hn =>
    have hlt : i < ts.length := (List.getElem?_eq_some_iff.1 hi).1
    show (ts ++ _)[i]? = _
    rw [List.getElem?_append_left hlt]
    exact hi
  | spawned => exact hi
  | run m ts q j left acc s d s' hj hd => exact upd hi hj (by simp)
  | die m ts q j left acc s hj hp => exact upd hi hj (by simp)
  | send m ts q j acc s hj he => exact upd hi hj (by simp)
  | sendFail m ts q j acc s hj he => exact upd hi hj (by simp)
  | recv => exact hi
  | recvFail => exact hi
  | finish => exact hi

/-- C76: if a run has panicked, the main thread never gets to the end and does not panic either: when nothing can happen any
more, it still waits for data, with an empty channel. -/
theorem C76_hangs (P : Program σ T) (n : Nat) (y : Sys σ T) (h : Steps P n .start y) (i : Nat)
    (hi : y.threads[i]? = some .dead) (m : Nat) (y' : Sys σ T) (h' : Steps P m y y') :
    y'.main.ended = false ∧ (Stuck P y' → ∃ k acc, k < P.cpu ∧ y'.main = .receiving k acc ∧ y'.queue = []) := by
  have hi' : y'.threads[i]? = some .dead := by
    clear h
    induction h' with
    | refl y => exact hi
    | snoc _ hs ih => exact dead_stays hs (ih hi)
  obtain ⟨order, ds, k, hinv⟩ := inv_steps (steps_trans h h')
  have hne : y'.main.ended = false := by
    by_contra hne
    have he : y'.main.ended = true := by simpa using hne
    have := Inv.noRunning (m := y'.main) (ts := y'.threads) (q := y'.queue) hinv he i (List.getElem?_eq_some_iff.1 hi').1
    rw [hi'] at this
    cases this
  refine ⟨hne, ?_⟩
  intro hst
  obtain ⟨mm, ts, q⟩ := y'
  cases mm with
  | spawning j =>
    by_cases hj : j < P.cpu
    · exact absurd (Step.spawn j ts q hj) (hst _)
    · exact absurd (Step.spawned j ts q hj) (hst _)
  | receiving j acc =>
    by_cases hj : j < P.cpu
    swap
    · exact absurd (Step.finish j acc ts q hj) (hst _)
    cases q with
    | cons d q => exact absurd (Step.recv j acc ts d q hj) (hst _)
    | nil => exact ⟨j, acc, hj, rfl, rfl⟩
  | finished acc => cases hne
  | panicked => cases hne

/-! ## Any order is possible -/

theorem spawn_all (P : Program σ T) : ∀ k, k ≤ P.cpu →
    Steps P k .start ⟨.spawning k, (List.range k).map (fun i => .running P.runCount Data.new (P.seed i)), []⟩ := by
  intro k
  induction k with
  | zero => intro _; exact .refl _
  | succ k ih =>
    intro hk
    have := Steps.snoc (ih (by omega)) (Step.spawn k _ _ (by omega))
    rw [List.range_succ, List.map_append]
    exact this

/-- A thread goes through its loop. -/
theorem thread_runs {P : Program σ T} (hP : P.Safe) (m : Main T) (q : List (Data T)) (i : Nat) : ∀ (left : Nat)
    (ts : List (Thread σ T)) (acc : Data T) (s : σ) (cs : List (Data T)), ts[i]? = some (.running left acc s) →
    Consecutive P (P.seed i) cs s → Merged cs acc → ∃ n acc' s' cs',
      Steps P n ⟨m, ts, q⟩ ⟨m, ts.set i (.running 0 acc' s'), q⟩ ∧ Consecutive P (P.seed i) cs' s' ∧
      Merged cs' acc' ∧ cs'.length = cs.length + left := by
  intro left
  induction left with
  | zero =>
    intro ts acc s cs h1 h2 h3
    refine ⟨0, acc, s, cs, ?_, h2, h3, rfl⟩
    have : ts.set i (.running 0 acc s) = ts := by
      obtain ⟨hlt, he⟩ := List.getElem?_eq_some_iff.1 h1
      rw [← he, List.set_getElem_self]
    rw [this]
    exact .refl _
  | succ left ih =>
    intro ts acc s cs h1 h2 h3
    obtain ⟨d, s', hd⟩ := (hP s).1
    have hlt := (List.getElem?_eq_some_iff.1 h1).1
    obtain ⟨n, acc', s'', cs', k1, k2, k3, k4⟩ := ih (ts.set i (.running left (acc.unite d) s')) (acc.unite d) s' (cs ++ [d])
      (by rw [List.getElem?_set_self hlt]) (.snoc h2 hd) (merged_append h3 (merged_single d))
    refine ⟨1 + n, acc', s'', cs', ?_, k2, k3, by rw [k4, List.length_append, List.length_singleton]; omega⟩
    rw [List.set_set] at k1
    exact steps_trans (.snoc (.refl _) (Step.run m ts q i left acc s d s' h1 hd)) k1

/-- The threads of a list go one after another and send. -/
theorem threads_run {P : Program σ T} (hP : P.Safe) (m : Main T) (hm : m.ended = false) : ∀ (l : List Nat)
    (ts : List (Thread σ T)) (q : List (Data T)), l.Nodup →
    (∀ i ∈ l, ts[i]? = some (.running P.runCount Data.new (P.seed i))) → ∃ (n : Nat) (ts' : List (Thread σ T)) (qs : List (Data T))
      (ds : Nat → List (Data T)),
      Steps P n ⟨m, ts, q⟩ ⟨m, ts', q ++ qs⟩ ∧
      (∀ i ∈ l, (ds i).length = P.runCount ∧ ∃ s', Consecutive P (P.seed i) (ds i) s') ∧
      List.Forall₂ (fun i d => Merged (ds i) d) l qs := by
  intro l
  induction l with
  | nil =>
    intro ts q _ _
    exact ⟨0, ts, [], fun _ => [], by rw [List.append_nil]; exact .refl _, fun i hi => absurd hi List.not_mem_nil, .nil⟩
  | cons i l ih =>
    intro ts q hnd h
    obtain ⟨hni, hnd⟩ := List.nodup_cons.1 hnd
    obtain ⟨n1, acc, s', cs, k1, k2, k3, k4⟩ := thread_runs hP m q i P.runCount ts Data.new (P.seed i) []
      (h i List.mem_cons_self) .nil merged_nil
    have hlt := (List.getElem?_eq_some_iff.1 (h i List.mem_cons_self)).1
    have k5 := Steps.snoc k1 (Step.send m (ts.set i (.running 0 acc s')) q i acc s' (by rw [List.getElem?_set_self hlt]) hm)
    rw [List.set_set] at k5
    obtain ⟨n2, ts', qs, ds, j1, j2, j3⟩ := ih (ts.set i .sent) (q ++ [acc]) hnd (by
      intro j hj
      rw [List.getElem?_set_ne (by rintro rfl; exact hni hj)]
      exact h j (List.mem_cons_of_mem _ hj))
    have hne : ∀ j ∈ l, j ≠ i := fun j hj he => hni (he ▸ hj)
    refine ⟨n1 + 1 + n2, ts', acc :: qs, fun j => if j = i then cs else ds j, ?_, ?_, ?_⟩
    · have := steps_trans k5 j1
      rwa [List.append_assoc, List.singleton_append] at this
    · intro j hj
      rcases List.mem_cons.1 hj with rfl | hj
      · simp only [if_true]
        exact ⟨by simpa using k4, s', k2⟩
      · simp only [hne j hj, if_false]
        exact j2 j hj
    · refine .cons (by simpa using k3) (forall2_imp j3 ?_)
      intro j hj d hd
      simp only [hne j hj, if_false]
      exact hd

/-- The main thread receives what is there. -/
theorem receives {P : Program σ T} (ts : List (Thread σ T)) (ds : Nat → List (Data T)) {l : List Nat} {q : List (Data T)}
    (h : List.Forall₂ (fun i d => Merged (ds i) d) l q) : ∀ (n : Nat) (acc : Data T) (cs : List (Data T)), Merged cs acc →
    n + l.length = P.cpu → ∃ k acc', Steps P k ⟨.receiving n acc, ts, q⟩ ⟨.finished acc', ts, []⟩ ∧
      Merged (cs ++ l.flatMap ds) acc' := by
  induction h with
  | nil =>
    intro n acc cs hm hn
    exact ⟨1, acc, .snoc (.refl _) (Step.finish n acc ts [] (by simp at hn; omega)), by simpa using hm⟩
  | @cons i d l q hid _ ih =>
    intro n acc cs hm hn
    rw [List.length_cons] at hn
    obtain ⟨k, acc', h1, h2⟩ := ih (n + 1) (acc.unite d) (cs ++ ds i) (merged_append hm hid) (by omega)
    refine ⟨1 + k, acc', steps_trans (.snoc (.refl _) (Step.recv n acc ts d q (by omega))) h1, ?_⟩
    rwa [List.append_assoc] at h2

/-- C76: the order is up to the scheduler: each order of the threads is that of some execution. -/
theorem C76_any_order (P : Program σ T) (hP : P.Safe) (order : List Nat) (ho : order.Perm (List.range P.cpu)) :
    ∃ n y acc, Steps P n .start y ∧ y.main = .finished acc ∧ MergedThreads P order acc := by
  have h1 := Steps.snoc (spawn_all P P.cpu (Nat.le_refl _)) (Step.spawned P.cpu _ _ (by omega))
  obtain ⟨n, ts', qs, ds, h2, h3, h4⟩ := threads_run hP (.receiving 0 Data.new) rfl order
    ((List.range P.cpu).map (fun i => .running P.runCount Data.new (P.seed i))) [] (ho.nodup_iff.2 List.nodup_range) (by
      intro i hi
      have := List.mem_range.1 (ho.mem_iff.1 hi)
      rw [List.getElem?_map, List.getElem?_range this]
      rfl)
  rw [List.nil_append] at h2
  obtain ⟨k, acc, h5, h6⟩ := receives (P := P) ts' ds h4 0 Data.new [] merged_nil (by rw [ho.length_eq, List.length_range]; omega)
  exact ⟨_, ⟨.finished acc, ts', []⟩, acc, steps_trans (steps_trans h1 h2) h5, rfl, ds, h3, h6⟩

/-! ## Examples -/

/-- Runs that count; the run number 7 panics. Thread `i` begins with `10 * i + first`. -/
def demo (first : Nat) : Program Nat Unit where
  cpu := 2
  runCount := 2
  job := fun _ s => if s = 7 then .error .user else .ok ((⟨[some ((), Fl.ofNat s)], [[]]⟩, [s]), s + 1)
  seed := fun i => 10 * i + first

/-- The same without the panic. -/
def demoSafe : Program Nat Unit :=
  { demo 0 with job := fun _ s => .ok ((⟨[some ((), Fl.ofNat s)], [[]]⟩, [s]), s + 1) }

theorem demoSafe_safe : demoSafe.Safe := fun s =>
  ⟨⟨_, _, 0, rfl⟩, by rintro ⟨fuel, e, -, h⟩; cases h⟩

/-- The second thread may come first. -/
example : ∃ n y acc, Steps demoSafe n .start y ∧ y.main = .finished acc ∧ acc.2 = [10, 11, 0, 1] := by
  obtain ⟨n, y, acc, h1, h2, ds, h3, h4⟩ := C76_any_order demoSafe demoSafe_safe [1, 0] (by decide)
  refine ⟨n, y, acc, h1, h2, ?_⟩
  have two : ∀ i, (ds i).length = 2 → (∃ s', Consecutive demoSafe (demoSafe.seed i) (ds i) s') →
      (ds i).flatMap (fun d => d.2) = [demoSafe.seed i, demoSafe.seed i + 1] := by
    rintro i hl ⟨s', hc⟩
    generalize demoSafe.seed i = s0 at hc
    generalize ds i = l at hc hl
    cases hc with
    | nil => cases hl
    | @snoc l1 s1 d1 _ hc hd =>
      rw [List.length_append, List.length_singleton] at hl
      cases hc with
      | nil => cases hl
      | @snoc l2 s2 d2 _ hc hd2 =>
        rw [List.length_append, List.length_singleton] at hl
        have : l2 = [] := List.length_eq_zero_iff.1 (by omega)
        subst this
        obtain ⟨_, hd⟩ := hd
        obtain ⟨_, hd2⟩ := hd2
        cases hd2
        cases hd
        generalize hl0 : ([] : List (Data Unit)) = l0 at hc
        cases hc with
        | nil => rfl
        | snoc => simp at hl0
  rw [h4.calls]
  simp only [List.flatMap_cons, List.flatMap_nil, List.append_nil, List.flatMap_append]
  rw [two 1 (h3 1 (by decide)).1 (h3 1 (by decide)).2, two 0 (h3 0 (by decide)).1 (h3 0 (by decide)).2]
  rfl

/-- C76: such a panic happens, and the program hangs. -/
theorem C76_hangs_witness : ∃ n y, Steps (demo 7) n .start y ∧ y.threads[0]? = some .dead := by
  refine ⟨2, _, .snoc (.snoc (.refl _) (Step.spawn 0 [] [] (by decide))) (Step.die _ _ _ 0 1 Data.new 7 rfl
    ⟨0, .user, by simp, rfl⟩), rfl⟩

end Verif.Props.Workers
