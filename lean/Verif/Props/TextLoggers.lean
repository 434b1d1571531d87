import Verif.Spec.Text
import Verif.Proofs.Told
import Verif.Proofs.Attach
import Verif.Props.StatLogger
import Verif.Props.Attach

/-!
# C65: the text loggers
-/

namespace Verif.Props

open Verif Spec Logging

variable {σ T α : Type}

theorem foldl_join (f : α → String) (x : List α) (r : String) :
    x.foldl (fun r xi => r ++ f xi) r = r ++ String.join (x.map f) := by
  induction x generalizing r with
  | nil => simp
  | cons a x ih => rw [List.foldl_cons, ih]; simp [String.append_assoc]

theorem verboseLine_eq (showT : Nat → α → String) (showGoal : Nat → F64 → String) (precision it : Nat) (x : List α)
    (goal : F64) : verboseLine showT showGoal precision it x goal ++ "\n" =
      iterationText (showT precision) (showGoal precision) it x goal := by
  unfold verboseLine iterationText
  simp only [foldl_join, padRight, padLeft, spaces]
  simp

/-! ## VerboseLogger -/

theorem informed_verbose {showT : Nat → α → String} {showGoal : Nat → F64 → String} {precision : Nat}
    {page page' : List String} {cs : List (LogKind × AlgState (List α))}
    (h : Informed (verbose toPage showT showGoal precision) page cs page') :
    page' = page ++ (nextsOf cs).filterMap (fun s => s.best.map (fun b =>
      iterationText (showT precision) (showGoal precision) s.iteration b.1 b.2)) := by
  induction h with
  | nil => simp [nextsOf]
  | @cons t t1 t' k s ks h1 _ ih =>
    obtain ⟨best, it⟩ := s
    cases k with
    | next =>
      rw [show (LogKind.next, (⟨best, it⟩ : AlgState (List α))) :: ks = [(LogKind.next, ⟨best, it⟩)] ++ ks from rfl,
        nextsOf_append, List.filterMap_append, ih]
      cases best with
      | none => cases h1; simp [nextsOf]
      | some b =>
        obtain ⟨x, g⟩ := b
        have h1 : Except.ok ((), t ++ [verboseLine showT showGoal precision it x g ++ "\n"]) =
          (Except.ok ((), t1) : Except Err _) := h1
        cases h1
        rw [verboseLine_eq]
        simp [nextsOf]
    | _ => cases h1; exact ih

/-- C65: `VerboseLogger` writes one text per completed iteration that has a best solution, in order, and nothing else. -/
theorem C65_verbose_genetic (showT : Nat → α → String) (showGoal : Nat → F64 → String) (precision : Nat)
    (L : Lens σ (List String)) (i : Nat) (o o' : GA.Opt σ (List α)) (ks : List (GA.Call σ (List α)))
    (hp : Spec.Always (GA.PrivateLogger L (verbose toPage showT showGoal precision) i) o.comps ks)
    (w w' : World σ (List α)) (rs : List (GA.Ret (List α))) (hr : GA.run o ks w = .ok ((rs, o'), w')) :
    ∃ ext, w'.trace = w.trace ++ ext ∧ L.get w'.user = L.get w.user ++ ext.filterMap (fun
      | .generation _ (some (x, goal)) _ it => some (iterationText (showT precision) (showGoal precision) it x goal)
      | _ => none) := by
  obtain ⟨ext, ht, hinf, hn, -, -⟩ := GA.history_told L i o o' ks hp w w' rs hr
  refine ⟨ext, ht, ?_⟩
  rw [informed_verbose hinf, hn, iterationsOf, List.filterMap_filterMap]
  congr 2
  funext e
  cases e with
  | generation agents best worst it => cases best <;> rfl
  | _ => rfl

/-- C65: VerboseLogger on a swarm writes one text for each iteration with a best solution. -/
theorem C65_verbose_swarm [FloatT α] (showT : Nat → α → String) (showGoal : Nat → F64 → String) (precision : Nat)
    (L : Lens σ (List String)) (i : Nat) (o o' : PSO.Opt σ α) (ks : List (PSO.Call σ α))
    (hp : Spec.Swarm.Always (PSO.PrivateLogger L (verbose toPage showT showGoal precision) i) o.comps ks)
    (w w' : World σ (List α)) (rs : List (PSO.Ret α)) (hr : PSO.run o ks w = .ok ((rs, o'), w')) :
    ∃ ext, w'.trace = w.trace ++ ext ∧ L.get w'.user = L.get w.user ++ ext.filterMap (fun
      | .generation _ (some (x, goal)) _ it => some (iterationText (showT precision) (showGoal precision) it x goal)
      | _ => none) := by
  obtain ⟨ext, ht, hinf, hn, -, -⟩ := PSO.history_told L i o o' ks hp w w' rs hr
  refine ⟨ext, ht, ?_⟩
  rw [informed_verbose hinf, hn, iterationsOf, List.filterMap_filterMap]
  congr 2
  funext e
  cases e with
  | generation agents best worst it => cases best <;> rfl
  | _ => rfl

/-- The text of an iteration is one line if the numbers contain no line break. -/
theorem C65_one_line (showT : α → String) (showGoal : F64 → String) (hT : ∀ a, '\n' ∉ (showT a).toList)
    (hG : ∀ g, '\n' ∉ (showGoal g).toList) (it : Nat) (x : List α) (goal : F64) :
    OneLine (iterationText showT showGoal it x goal) := by
  refine ⟨_, by rw [iterationText, String.toList_append]; rfl, ?_⟩
  have hsp : ∀ n, '\n' ∉ (spaces n).toList := by intro n; simp [spaces]
  have hnat : ∀ n : Nat, '\n' ∉ (toString n).toList := by
    intro n h
    rw [show toString n = n.repr from rfl, Nat.toList_repr] at h
    have := Nat.isDigit_of_mem_toDigits (by decide) (by decide) h
    exact absurd this (by decide)
  have hcells : '\n' ∉ (String.join (x.map (fun xi => "  " ++ (showT xi ++ spaces (20 - (showT xi).length))))).toList := by
    induction x with
    | nil => simp
    | cons a x ih =>
      simp only [List.map_cons, String.join_cons, String.toList_append, List.mem_append]
      rintro ((h | h | h) | h)
      · exact absurd h (by decide)
      · exact hT _ h
      · exact hsp _ h
      · exact ih h
  simp only [String.toList_append, List.mem_append]
  rintro (((h | h) | h) | h | h | h)
  · exact hnat _ h
  · exact hsp _ h
  · exact hcells h
  · exact absurd h (by decide)
  · exact hsp _ h
  · exact hG _ h

/-! ## ResultOnlyLogger -/

theorem informed_resultOnly {showT : Nat → α → String} {showGoal : Nat → F64 → String} {precision : Nat}
    {page page' : List String} {cs : List (LogKind × AlgState (List α))}
    (h : Informed (resultOnly toPage showT showGoal precision) page cs page') :
    page' = page ++ (endsOf cs).flatMap (finishTexts (showT precision) (showGoal precision)) := by
  induction h with
  | nil => simp [endsOf]
  | @cons t t1 t' k s ks h1 _ ih =>
    obtain ⟨best, it⟩ := s
    cases k with
    | finish =>
      rw [show (LogKind.finish, (⟨best, it⟩ : AlgState (List α))) :: ks = [(LogKind.finish, ⟨best, it⟩)] ++ ks from rfl,
        endsOf_append, List.flatMap_append, ih, ← List.append_assoc]
      congr 1
      cases best with
      | none =>
        have h1 : Except.ok ((), t ++ ["Solution not found" ++ "\n"] ++ ["Iterations count: " ++ toString it ++ "\n"]) =
          (Except.ok ((), t1) : Except Err _) := h1
        cases h1
        simp [endsOf, finishTexts]
      | some b =>
        obtain ⟨x, g⟩ := b
        have h1 : Except.ok ((), t ++ [x.foldl (fun r xi => r ++ ("  " ++ showT precision xi ++ "\n"))
            ("" ++ "Solution:\n") ++ "\n" ++ "\n"] ++ ["Goal: " ++ showGoal precision g ++ "\n"] ++
            ["Iterations count: " ++ toString it ++ "\n"]) =
          (Except.ok ((), t1) : Except Err _) := h1
        cases h1
        rw [foldl_join]
        simp [endsOf, finishTexts]
    | _ => cases h1; exact ih

/-- C65: `ResultOnlyLogger` writes at the end of each run the solution that is returned, or that there is none, and the
number of iterations, and nothing else. -/
theorem C65_resultOnly_genetic (showT : Nat → α → String) (showGoal : Nat → F64 → String) (precision : Nat)
    (L : Lens σ (List String)) (i : Nat) (o o' : GA.Opt σ (List α)) (ks : List (GA.Call σ (List α)))
    (hp : Spec.Always (GA.PrivateLogger L (resultOnly toPage showT showGoal precision) i) o.comps ks)
    (w w' : World σ (List α)) (rs : List (GA.Ret (List α))) (hr : GA.run o ks w = .ok ((rs, o'), w')) :
    ∃ ext, w'.trace = w.trace ++ ext ∧ (finishesOf i ext).map AlgState.best = rs.filterMap id ∧
      L.get w'.user = L.get w.user ++ (finishesOf i ext).flatMap (finishTexts (showT precision) (showGoal precision)) := by
  obtain ⟨ext, ht, hinf, -, hf, -⟩ := GA.history_told L i o o' ks hp w w' rs hr
  exact ⟨ext, ht, hf, by rw [finishesOf_eq]; exact informed_resultOnly hinf⟩

/-- C65: ResultOnlyLogger on a swarm writes the result of each finished run. -/
theorem C65_resultOnly_swarm [FloatT α] (showT : Nat → α → String) (showGoal : Nat → F64 → String) (precision : Nat)
    (L : Lens σ (List String)) (i : Nat) (o o' : PSO.Opt σ α) (ks : List (PSO.Call σ α))
    (hp : Spec.Swarm.Always (PSO.PrivateLogger L (resultOnly toPage showT showGoal precision) i) o.comps ks)
    (w w' : World σ (List α)) (rs : List (PSO.Ret α)) (hr : PSO.run o ks w = .ok ((rs, o'), w')) :
    ∃ ext, w'.trace = w.trace ++ ext ∧ (finishesOf i ext).map AlgState.best = rs.filterMap id ∧
      L.get w'.user = L.get w.user ++ (finishesOf i ext).flatMap (finishTexts (showT precision) (showGoal precision)) := by
  obtain ⟨ext, ht, hinf, -, hf, -⟩ := PSO.history_told L i o o' ks hp w w' rs hr
  exact ⟨ext, ht, hf, by rw [finishesOf_eq]; exact informed_resultOnly hinf⟩

/-! ## TimeLogger -/

/-- The fields of a `TimeLogger`, the clock and the page. -/
abbrev Timed : Type := (Option Nat × Nat) × List String

def startTime : Lens Timed (Option Nat) :=
  ⟨fun t => t.1.1, fun a t => ((a, t.1.2), t.2), fun _ _ => rfl, fun _ => rfl, fun _ _ _ => rfl⟩

/-- The number of clock readings so far. -/
def readings : Lens Timed Nat :=
  ⟨fun t => t.1.2, fun a t => ((t.1.1, a), t.2), fun _ _ => rfl, fun _ => rfl, fun _ _ _ => rfl⟩

/-- A `TimeLogger` on a page, with a clock. -/
def timeOnPage (f : Nat → Nat) : Logger Timed (List α) :=
  Logging.time (fun s => (Lens.snd _ _).zoom (toPage s)) (readings.zoom (clock f)) startTime

def timeStep (f : Nat → Nat) (t : Timed) : LogKind → Timed
  | .resume => ((some (f t.1.2), t.1.2 + 1), t.2)
  | .finish => ((t.1.1, t.1.2 + 1), t.2 ++ [timeText (f t.1.2 - t.1.1.getD 0)])
  | _ => t

theorem informed_time {f : Nat → Nat} {t t' : Timed} {cs : List (LogKind × AlgState (List α))}
    (h : Informed (timeOnPage f) t cs t') : t' = (marksOf cs).foldl (timeStep f) t := by
  induction h with
  | nil => rfl
  | @cons t t1 t' k s ks h1 _ ih =>
    cases k with
    | resume =>
      cases h1
      exact ih
    | finish =>
      obtain ⟨⟨st, n⟩, page⟩ := t
      cases st with
      | none => cases h1
      | some st =>
        cases h1
        exact ih
    | _ => cases h1; exact ih

theorem fold_time (f : Nat → Nat) (m : Nat) (t : Timed) :
    let t' := ((List.replicate m [LogKind.resume, .finish]).flatten).foldl (timeStep f) t
    t'.1.2 = t.1.2 + 2 * m ∧
      t'.2 = t.2 ++ (List.range m).map (fun j => timeText (f (t.1.2 + 2 * j + 1) - f (t.1.2 + 2 * j))) := by
  induction m generalizing t with
  | zero => simp
  | succ m ih =>
    obtain ⟨h1, h2⟩ := ih (timeStep f (timeStep f t .resume) .finish)
    simp only [List.replicate_succ, List.flatten_cons, List.cons_append, List.nil_append, List.foldl_cons]
    refine ⟨?_, ?_⟩
    · rw [h1]; simp only [timeStep]; omega
    · rw [h2, List.range_succ_eq_map]
      simp only [timeStep, List.map_cons, List.map_map, List.append_assoc, List.singleton_append]
      congr 2
      simp only [List.map_inj_left]
      intro j _
      simp only [Function.comp]
      rw [show t.1.2 + 1 + 1 + 2 * j = t.1.2 + 2 * (j + 1) by omega]

/-- C65: `TimeLogger` reads the clock twice in each run and writes at its end the difference. -/
theorem C65_time_genetic (f : Nat → Nat) (L : Lens σ Timed) (i : Nat) (o o' : GA.Opt σ (List α))
    (ks : List (GA.Call σ (List α))) (hp : Spec.Always (GA.PrivateLogger L (timeOnPage f) i) o.comps ks)
    (w w' : World σ (List α)) (rs : List (GA.Ret (List α))) (hr : GA.run o ks w = .ok ((rs, o'), w')) :
    (L.get w'.user).2 = (L.get w.user).2 ++ (List.range (rs.filterMap id).length).map (fun j =>
      timeText (f ((L.get w.user).1.2 + 2 * j + 1) - f ((L.get w.user).1.2 + 2 * j))) := by
  obtain ⟨ext, ht, hinf, -, -, hm⟩ := GA.history_told L i o o' ks hp w w' rs hr
  rw [informed_time hinf, hm]
  exact (fold_time f _ _).2

/-- C65: TimeLogger on a swarm writes one time for each finished run: the difference of its two looks at the clock. -/
theorem C65_time_swarm [FloatT α] (f : Nat → Nat) (L : Lens σ Timed) (i : Nat) (o o' : PSO.Opt σ α)
    (ks : List (PSO.Call σ α)) (hp : Spec.Swarm.Always (PSO.PrivateLogger L (timeOnPage f) i) o.comps ks)
    (w w' : World σ (List α)) (rs : List (PSO.Ret α)) (hr : PSO.run o ks w = .ok ((rs, o'), w')) :
    (L.get w'.user).2 = (L.get w.user).2 ++ (List.range (rs.filterMap id).length).map (fun j =>
      timeText (f ((L.get w.user).1.2 + 2 * j + 1) - f ((L.get w.user).1.2 + 2 * j))) := by
  obtain ⟨ext, ht, hinf, -, -, hm⟩ := PSO.history_told L i o o' ks hp w w' rs hr
  rw [informed_time hinf, hm]
  exact (fold_time f _ _).2

/-- C65: a `TimeLogger` never fails in an optimizer, whatever call comes first (with `C70_genetic_any`,
`C70_swarm_any`: it does not change the outcome of any history). -/
theorem C65_time_total (f : Nat → Nat) : NeverFails (timeOnPage f : Logger Timed (List α)) (fun _ => True)
    (fun _ => True) (fun t => (startTime.get t).isSome) (fun _ => True) :=
  C70_time startTime (fun _ _ => ⟨(), _, rfl⟩) (fun _ => ⟨_, _, rfl⟩)

/-! ## Concrete runs -/

/-- A page without the numbers. -/
def verboseDemo : Logger (List String) (List F64) := verbose toPage (fun _ _ => "x") (fun _ _ => "y") 3

example : Spec.Always (GA.PrivateLogger (Lens.snd _ _) verboseDemo 1) (Demo.opt.attach 1 verboseDemo).comps
    [.findMin 3, .findMin 3, .setStopChecker (Stop.maxIterations 3), .nextIterations 3] :=
  private_calls_ga (GA.attach_private Demo.opt (i := 1) (by decide) verboseDemo)

example : M.okAnd (GA.run (Demo.opt.attach 1 verboseDemo)
    [.findMin 3, .findMin 3, .setStopChecker (Stop.maxIterations 3), .nextIterations 3] ⟨(Demo.script, []), []⟩)
    (fun _ w => w.user.2.length == 5) = true := by decide +kernel

example : M.okAnd (PSO.run (SwarmDemo.opt.attach 1 (timeOnPage (fun n => n * n)))
    [.findMin 3, .findMin 3, .setStopChecker (Stop.maxIterations 3), .nextIterations 3]
    ⟨(Demo.script, ((none, 0), [])), []⟩)
    (fun _ w => w.user.2.2 == [timeText 1, timeText 5, timeText 9]) = true := by decide +kernel

example : OneLine (iterationText (α := Nat) toString (fun _ => "1.5") 12 [3, 4] (Fl.ofNat 1)) :=
  C65_one_line _ _ (fun n h => by
    rw [show toString n = n.repr from rfl, Nat.toList_repr] at h
    exact absurd (Nat.isDigit_of_mem_toDigits (by decide) (by decide) h) (by decide)) (fun _ => by decide) _ _ _

end Verif.Props
