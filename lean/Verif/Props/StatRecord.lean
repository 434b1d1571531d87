import Verif.Spec.StatPrograms
import Verif.Proofs.SwarmRow
import Verif.Props.SwarmExamples

/-!
# C77: what one run of a statistics program records
-/

namespace Verif.Props.Swarm

open Verif Spec Spec.Swarm PSO Examples Fl Stats Workers StatPrograms

variable {σ τ : Type}

theorem rowsOf_withoutLogs {T : Type} (tr : List (Ev T)) : rowsOf (withoutLogs tr) = rowsOf tr := by
  unfold rowsOf withoutLogs
  generalize ([] : List (List (Option (Solution T)))) = rows
  induction tr generalizing rows with
  | nil => rfl
  | cons e tr ih => cases e <;> simp [ih, rowStep]

/-- The one run of a worker, from the same run without counter and logger. -/
theorem swarm_recorded (p : Profile) (o : Opt σ F32) (fuel : Nat) (s : σ) (h0 : Fresh o ⟨s, []⟩) {n m : Nat} (hn : n ≠ 0)
    (hfit : n * (m + 1) < 2 ^ 64) {ivs : List (F32 × F32)} {V : List F32 → F64 → Prop}
    (h : SwarmEndsWell n m ivs V (findMin fuel o ⟨s, []⟩)) :
    ∃ d s', swarmJob p (pure o) fuel s = .ok (d, s') ∧ SwarmRecord n m ivs V d := by
  obtain ⟨a, o', w', h1, hb, hc, hi⟩ := h
  obtain ⟨row, hrow, hlen, hlast, hargs, hpre⟩ := findMin_row h1 rfl
  have hrun : PSO.run o [.findMin fuel] ⟨s, []⟩ = .ok (([some (some a)], o'), w') :=
    run_snoc (ks := []) rfl (M.bind_eq_ok.2 ⟨_, _, h1, rfl⟩)
  have hps : o'.swarm.particles.length = n := by
    have := C27_swarm o o' _ w' _ .done h0 (runTo_done hrun)
    rw [hc] at this
    exact (Nat.eq_of_mul_eq_mul_right (by omega) this).symm
  have hcnt := C52_swarm o o' p [.findMin fuel] ⟨s, []⟩ w' CallCount.new (n * (row.length + 1)) _ hrun
    (by rw [hargs, hc, hlen]; simp [goalArgs]) (by
      have : n * (row.length + 1) ≤ n * (m + 1) := Nat.mul_le_mul_left _ (by omega)
      show 0 + _ < _
      omega)
  obtain ⟨t', tr', h2, -, htr⟩ := (C70_swarm (C70_statistics p) (o.counted p) 0 fuel [] ⟨(s, CallCount.new), []⟩ Statistics.new
    trivial).returns _ _ (by
      show psoView (PSO.run (o.counted p) [.findMin fuel] ⟨(s, CallCount.new), []⟩) = _
      rw [show PSO.run (o.counted p) [.findMin fuel] ⟨(s, CallCount.new), []⟩ = _ from hcnt]; rfl)
  have h2 : psoView (PSO.run ((o.counted p).attach 0 (Stats.logger p)) [.findMin fuel]
    ⟨((s, CallCount.new), Statistics.new), []⟩) = _ := h2
  cases h3 : findMin fuel ((o.counted p).attach 0 (Stats.logger p)) ⟨((s, CallCount.new), Statistics.new), []⟩ with
  | error e =>
    have : PSO.run ((o.counted p).attach 0 (Stats.logger p)) [.findMin fuel] ⟨((s, CallCount.new), Statistics.new), []⟩ =
        .error e := by
      unfold PSO.run
      exact M.bind_eq_error.2 (.inl (M.bind_eq_error.2 (.inl h3)))
    rw [this] at h2; cases h2
  | ok q =>
    obtain ⟨⟨r, o2⟩, w2⟩ := q
    have hrun2 : PSO.run ((o.counted p).attach 0 (Stats.logger p)) [.findMin fuel]
        ⟨((s, CallCount.new), Statistics.new), []⟩ = .ok (([some r], o2), w2) :=
      run_snoc (ks := []) rfl (M.bind_eq_ok.2 ⟨_, _, h3, rfl⟩)
    rw [hrun2] at h2
    simp only [psoView, Except.ok.injEq, Prod.mk.injEq, List.cons.injEq, Option.some.injEq, and_true] at h2
    obtain ⟨⟨rfl, h4⟩, rfl⟩ := h2
    have hpriv := PSO.attach_private (o.counted p) (Nat.zero_le _) (Stats.logger p)
    obtain ⟨k1, k2⟩ := C50_swarm_fresh p (Lens.snd _ _) 0 _ o2 [.findMin fuel] ⟨hpriv, hpriv⟩ _ _ rfl rfl _ hrun2
    rw [← rowsOf_withoutLogs, htr, rowsOf_withoutLogs] at k2
    have hd : t' = ⟨[some a], [row]⟩ := by
      have k1 : t'.results = [some a] := k1
      have k2 : t'.convergence = rowsOf w'.trace := k2
      rw [hrow] at k2
      cases t'
      simp only at k1 k2
      rw [k1, k2]
    refine ⟨_, w'.user, M.bind_eq_ok.2 ⟨o, s, rfl, ?_⟩, goalsSince w'.trace, a, row, rfl, by rw [hc, hlen], by omega, hb, hlast, ?_⟩
    · rw [h3]
      simp only [hd]
      congr 3
      show countUp [] _ = _
      unfold countUp
      cases hm : n * (row.length + 1) with
      | zero => exact absurd hm (Nat.mul_ne_zero hn (by omega))
      | succ k => rfl
    · intro i hil
      obtain ⟨before, ags, worst, it, after, h5, h6⟩ := hpre i _ (List.getElem?_eq_getElem hil)
      obtain ⟨k3, k4⟩ := C39_shown o o' _ w' _ .done h0 (runTo_done hrun) before after _ _ h5 rfl
      rw [hps] at h6
      have hne : goalsSince before ≠ [] := by
        intro he
        rw [he] at h6
        have := congrArg List.length h6
        rw [List.length_take, hc, List.length_nil, ← hlen] at this
        have h7 : 0 < n * (i + 2) := Nat.mul_pos (by omega) (by omega)
        have h8 : 0 < n * (row.length + 1) := Nat.mul_pos (by omega) (by omega)
        omega
      cases hbst : row[i] with
      | none => exact absurd (k3.1 hbst) hne
      | some b =>
        obtain ⟨m1, m2⟩ := k4 b hbst
        rw [h6] at m1 m2
        have hsub : ∀ c, c ∈ (goalsSince w'.trace).take (n * (i + 2)) → c ∈ goalsSince w'.trace := fun c hc => List.mem_of_mem_take hc
        refine ⟨b, rfl, m1, ?_, fun c hc => hb.inside c (hsub c hc), fun c hc => hb.values c (hsub c hc),
          fun c hc => hb.finite c (hsub c hc)⟩
        intro c hc
        rcases m2 c hc with ⟨-, -, h7⟩ | h7
        · exact h7
        · rw [hb.finite c (hsub c hc)] at h7; cases h7

end Verif.Props.Swarm
