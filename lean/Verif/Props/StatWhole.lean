import Verif.Props.StatSwarm
import Verif.Props.StatGenetic
import Verif.Props.Workers
import Verif.Props.StatGoal
import Verif.Props.CallCount
import Verif.Proofs.MoreFuel

/-!
# C78: the statistics programs as a whole
-/

namespace Verif.Props

open Verif Spec Examples Fl Stats Workers StatPrograms

variable {σ : Type}

/-- A job that has come to an end needs no more fuel. -/
def Steady (job : Nat → M σ (Data (List F32))) : Prop := ∀ f d, M.Upto (job f) (job (f + d))

theorem swarmJob_steady (p : Profile) (make : M σ (PSO.Opt σ F32)) : Steady (swarmJob p make) := by
  intro f d
  unfold swarmJob
  refine (M.Upto.refl _).bind fun o => ?_
  intro s h
  have key := PSO.findMin_more ((o.counted p).attach 0 (Stats.logger p)) f d ⟨((s, CallCount.new), Statistics.new), []⟩
  have h1 : PSO.findMin f ((o.counted p).attach 0 (Stats.logger p)) ⟨((s, CallCount.new), Statistics.new), []⟩ ≠ .error .fuel := by
    intro he
    simp only [he] at h
    exact h rfl
  simp only [key h1]

theorem geneticJob_steady (p : Profile) (make : M σ (GA.Opt σ (List F32))) : Steady (geneticJob p make) := by
  intro f d
  unfold geneticJob
  refine (M.Upto.refl _).bind fun o => ?_
  intro s h
  have key := GA.findMin_more ((o.counted p).attach 0 (Stats.logger p)) f d ⟨((s, CallCount.new), Statistics.new), []⟩
  have h1 : GA.findMin f ((o.counted p).attach 0 (Stats.logger p)) ⟨((s, CallCount.new), Statistics.new), []⟩ ≠ .error .fuel := by
    intro he
    simp only [he] at h
    exact h rfl
  simp only [key h1]

section

variable {job : Nat → M σ (Data (List F32))} {F : Nat} {record : Data (List F32) → Prop}

/-- What a job does with some fuel it does with `F` if that is enough. -/
theorem steady_same (hs : Steady job) {s : σ} {r : Data (List F32) × σ} (h : job F s = .ok r) {f : Nat}
    (hf : job f s ≠ .error .fuel) : job f s = .ok r := by
  rcases Nat.le_total f F with hle | hle
  · obtain ⟨d, rfl⟩ := Nat.exists_eq_add_of_le hle
    rw [← hs f d s hf, h]
  · obtain ⟨d, rfl⟩ := Nat.exists_eq_add_of_le hle
    rw [hs F d s (by rw [h]; intro he; cases he), h]

theorem job_safe (hs : Steady job) (hjob : ∀ s, ∃ r s', job F s = .ok (r, s') ∧ record r) (total cpu : Nat) (seed : Nat → σ) :
    (threads total cpu job seed).Safe ∧ ∀ s d s', (threads total cpu job seed).Returns s d s' → record d := by
  refine ⟨fun s => ⟨?_, ?_⟩, ?_⟩
  · obtain ⟨r, s', h, -⟩ := hjob s
    exact ⟨r, s', F, h⟩
  · rintro ⟨f, e, he, h⟩
    obtain ⟨r, s', h1, -⟩ := hjob s
    have h : job f s = .error e := h
    have := steady_same hs h1 (f := f) (by rw [h]; intro h2; cases h2; exact he rfl)
    rw [h] at this
    cases this
  · rintro s d s' ⟨f, h⟩
    obtain ⟨r, s1, h1, h2⟩ := hjob s
    have h : job f s = .ok (d, s') := h
    have := steady_same hs h1 (f := f) (by rw [h]; intro h2; cases h2)
    rw [h] at this
    cases this
    exact h2

theorem consecutive_all {P : Program σ (List F32)} (hP : ∀ s d s', P.Returns s d s' → record d) {s s' : σ}
    {ds : List (Data (List F32))} (h : Consecutive P s ds s') : ∀ d ∈ ds, record d := by
  induction h with
  | nil => intro d hd; cases hd
  | snoc _ h1 ih =>
    intro d hd
    rcases List.mem_append.1 hd with hd | hd
    · exact ih d hd
    · rw [List.mem_singleton.1 hd]
      exact hP _ _ _ h1

theorem flatMap_length {α β : Type} {g : α → List β} {k : Nat} : ∀ {l : List α}, (∀ a ∈ l, (g a).length = k) →
    (l.flatMap g).length = l.length * k := by
  intro l
  induction l with
  | nil => intro _; simp
  | cons a l ih =>
    intro h
    rw [List.flatMap_cons, List.length_append, h a List.mem_cons_self, ih fun b hb => h b (List.mem_cons_of_mem _ hb),
      List.length_cons, Nat.add_mul]
    omega

/-- Many runs in many threads -/
theorem whole (hs : Steady job) (hjob : ∀ s, ∃ r s', job F s = .ok (r, s') ∧ record r) (total cpu : Nat) (seed : Nat → σ)
    {output : Nat → Data (List F32) → Prop}
    (hout : ∀ ds acc, ds.length = cpu * (total / cpu) → (∀ d ∈ ds, record d) → Merged ds acc → output ds.length acc) :
    Reports total cpu job seed record output := by
  obtain ⟨hsafe, hrec⟩ := job_safe hs hjob total cpu seed
  intro n y hy
  refine ⟨Workers.C76_bounded _ n y hy, (Workers.C76_ends _ hsafe n y hy).1, ?_⟩
  intro acc hacc
  obtain ⟨order, hperm, ds, hds, hm⟩ := Workers.C76_merged _ n y hy acc hacc
  have hlen : (order.flatMap ds).length = cpu * (total / cpu) := by
    rw [flatMap_length fun i hi => (hds i hi).1, hperm.length_eq, List.length_range]
    rfl
  have hall : ∀ d ∈ order.flatMap ds, record d := by
    intro d hd
    obtain ⟨i, hi, hd⟩ := List.mem_flatMap.1 hd
    obtain ⟨-, s', hc⟩ := hds i hi
    exact consecutive_all hrec hc d hd
  exact ⟨⟨_, hlen, hall, hm⟩, hlen ▸ hout _ acc hlen hall hm⟩

end

/-- One result, one row without holes, one counter of at most `b` -/
def OneRun (b : Nat) (d : Data (List F32)) : Prop :=
  ∃ a row k, d = (⟨[some a], [row]⟩, [k]) ∧ none ∉ row ∧ k ≤ b

theorem merged_runs {b : Nat} {ds : List (Data (List F32))} {acc : Data (List F32)} (h : ∀ d ∈ ds, OneRun b d)
    (hm : Merged ds acc) : acc.1.results.length = ds.length ∧ none ∉ acc.1.results ∧
    acc.1.convergence.length = ds.length ∧ (∀ row ∈ acc.1.convergence, none ∉ row) ∧
    acc.2.length = ds.length ∧ acc.2.sum ≤ ds.length * b := by
  obtain ⟨h1, h2, h3⟩ := hm
  rw [h1, h2, h3]
  clear h1 h2 h3
  induction ds with
  | nil => simp
  | cons d ds ih =>
    obtain ⟨a, row, k, rfl, hn, hk⟩ := h d List.mem_cons_self
    obtain ⟨i1, i2, i3, i4, i5, i6⟩ := ih fun d hd => h d (List.mem_cons_of_mem _ hd)
    simp only [List.flatMap_cons, List.length_append, List.length_singleton, List.singleton_append, List.length_cons,
      List.sum_cons, List.mem_cons, not_or]
    refine ⟨by omega, ⟨by simp, i2⟩, by omega, ?_, by omega, ?_⟩
    · rintro r (rfl | hr)
      · exact hn
      · exact i4 r hr
    · rw [Nat.add_mul]
      omega

theorem mapL_index {α : Type} (l : List α) (s : σ) : M.mapL (fun n => M.index l n) (List.range l.length) s = .ok (l, s) := by
  have key : ∀ (k : List Nat), (∀ n ∈ k, n < l.length) →
      M.mapL (fun n => (M.index l n : M σ α)) k s = .ok (k.filterMap (l[·]?), s) := by
    intro k
    induction k with
    | nil => intro _; rfl
    | cons n k ih =>
      intro h
      have hn := h n List.mem_cons_self
      refine M.bind_eq_ok.2 ⟨l[n], s, M.index_eq_ok.2 ⟨List.getElem?_eq_getElem hn, rfl⟩, M.bind_eq_ok.2 ⟨_, s,
        ih fun m hm => h m (List.mem_cons_of_mem _ hm), ?_⟩⟩
      rw [List.filterMap_cons, List.getElem?_eq_getElem hn]
      rfl
  rw [key _ fun n hn => List.mem_range.1 hn]
  have : ∀ l : List α, (List.range l.length).filterMap (l[·]?) = l := by
    intro l
    induction l using List.reverseRecOn with
    | nil => rfl
    | append_singleton l x ih =>
      rw [List.length_append, List.length_singleton, List.range_succ, List.filterMap_append, List.filterMap_cons]
      simp only [List.getElem?_concat_length, List.filterMap_nil]
      congr 1
      refine Eq.trans (List.filterMap_congr fun n hn => ?_) ih
      exact List.getElem?_append_left (List.mem_range.1 hn)
  rw [this]

theorem printed {b : Nat} {ds : List (Data (List F32))} {acc : Data (List F32)} (h : ∀ d ∈ ds, OneRun b d)
    (hm : Merged ds acc) (h2 : 2 ≤ ds.length) (hmany : ds.length < 2 ^ 64) (hsum : acc.2.sum < 2 ^ 64) (p : Profile)
    (valid delta : List F32) (hl : valid.length = delta.length) : Printed (σ := σ) p valid delta ds.length acc := by
  obtain ⟨h1, hn, hc, hrow, hk, -⟩ := merged_runs h hm
  obtain ⟨-, m2, m3⟩ := C57_min acc.1.convergence
  have hne : acc.1.results ≠ [] := fun he => by rw [he] at h1; simp at h1; omega
  have hcne : acc.1.convergence ≠ [] := fun he => by rw [he] at hc; simp at hc; omega
  have hkne : acc.2 ≠ [] := fun he => by rw [he] at hk; simp at hk; omega
  have hfilter : acc.1.results.filter Option.isSome = acc.1.results := by
    rw [List.filter_eq_self]
    intro r hr
    cases r with
    | none => exact absurd hr hn
    | some a => rfl
  intro s
  obtain ⟨good, hgood⟩ := (C59_vec_new (γ := F64) valid delta s).1 hl
  cases hrate : successRate (γ := F64) acc.1.results good with
  | none => exact absurd ((C58_none _ _).1 hrate) hne
  | some rate =>
  cases havg : averageGoal acc.1.results with
  | none =>
    obtain ⟨r, hr⟩ := List.exists_mem_of_ne_nil _ hne
    exact absurd ((C54_none _).1 havg r hr ▸ hr) hn
  | some avg =>
  cases hdev : stdDevGoal acc.1.results with
  | none =>
    have := (C55_none _).1 hdev
    rw [hfilter] at this
    omega
  | some dev =>
  have hcalls : CallCount.average (γ := F64) p acc.2 = .ok (some (Fl.div (Fl.ofNat acc.2.sum) (Fl.ofNat ds.length))) := by
    unfold CallCount.average
    rw [usizeSum_eq p acc.2 0 (by rw [Nat.zero_add]; exact hsum)]
    show Except.ok _ = _
    have : (acc.2.length == 0) = false := by simp [hkne]
    simp only [this, Bool.false_eq_true, ↓reduceIte, Nat.zero_add]
    rw [hk]
    rfl
  obtain ⟨-, hr⟩ := successRate_eq hrate
  have hrange := C58_range _ _ (by omega) rate hrate
  refine ⟨_, rate, avg, dev, _, M.bind_eq_ok.2 ⟨_, s, mapL_index _ _, M.bind_eq_ok.2 ⟨_, s, C57_entries _ s, rfl⟩⟩, ?_, ?_, ?_,
    M.bind_eq_ok.2 ⟨good, s, hgood, ?_⟩, ⟨good, fun a => C59_vec valid delta s s good hgood a.1 a.2, ?_⟩, hrange.1, hrange.2,
    C55_nonneg _ dev hdev, rfl⟩
  · intro hmem
    obtain ⟨i, hi, he⟩ := List.mem_map.1 hmem
    have hi := List.mem_range.1 hi
    obtain ⟨row, hr0⟩ := List.exists_mem_of_ne_nil _ hcne
    have hlt : i < row.length := Nat.lt_of_lt_of_le hi (m2 row hr0)
    have hin : row[i] ∈ atIteration i acc.1.convergence :=
      List.mem_filterMap.2 ⟨row, hr0, List.getElem?_eq_getElem hlt⟩
    have := (C54_none _).1 he _ hin
    exact hrow row hr0 (this ▸ List.getElem_mem hlt)
  · intro row hr0
    rw [List.length_map, List.length_range]
    exact m2 row hr0
  · obtain ⟨row, hr0, he⟩ := m3 hcne
    refine ⟨row, hr0, ?_⟩
    rw [List.length_map, List.length_range, he]
  · rw [hrate, havg, hdev, hcalls]
    show Except.ok _ = _
    rw [← h1]
    rfl
  · rw [hr, h1]

theorem swarm_oneRun {n m : Nat} {ivs : List (F32 × F32)} {V : List F32 → F64 → Prop} {d : Data (List F32)}
    (h : SwarmRecord n m ivs V d) : OneRun (n * (m + 1)) d := by
  obtain ⟨ps, a, row, rfl, -, hm, -, -, hrow⟩ := h
  refine ⟨a, row, _, rfl, fun hn => ?_, Nat.mul_le_mul_left _ (by omega)⟩
  obtain ⟨i, hi, he⟩ := List.mem_iff_getElem.1 hn
  obtain ⟨b, hb, -⟩ := hrow i hi
  rw [he] at hb
  cases hb

theorem genetic_oneRun {size births m : Nat} {ivs : List (F32 × F32)} {V : List F32 → F64 → Prop} {d : Data (List F32)}
    (h : GeneticRecord size births m ivs V d) : OneRun (size + births * m) d := by
  obtain ⟨ps, a, row, rfl, -, hm, -, hl, -, -, hrow⟩ := h
  refine ⟨a, row, _, rfl, fun hn => ?_, Nat.le_trans hl (Nat.add_le_add_left (Nat.mul_le_mul_left _ hm) _)⟩
  obtain ⟨i, hi, he⟩ := List.mem_iff_getElem.1 hn
  obtain ⟨b, hb, -⟩ := hrow i hi
  rw [he] at hb
  cases hb

theorem share {total cpu : Nat} (h1 : 1 ≤ cpu) (h2 : cpu ≤ total) (h3 : 2 ≤ total) :
    2 ≤ cpu * (total / cpu) ∧ cpu * (total / cpu) ≤ total := by
  refine ⟨?_, Nat.mul_div_le _ _⟩
  have : 1 ≤ total / cpu := (Nat.one_le_div_iff (by omega)).2 h2
  rcases Nat.lt_or_ge 1 cpu with h | h
  · calc 2 ≤ cpu * 1 := by omega
      _ ≤ _ := Nat.mul_le_mul_left _ this
  · have : cpu = 1 := by omega
    subst this
    simpa using h3

/-- If the counters are small enough. -/
theorem whole_printed {job : Nat → M σ (Data (List F32))} {F : Nat} {record : Data (List F32) → Prop} (hs : Steady job)
    (hjob : ∀ s, ∃ r s', job F s = .ok (r, s') ∧ record r) {b : Nat} (hone : ∀ d, record d → OneRun b d) {total cpu : Nat}
    (h1 : 1 ≤ cpu) (h2 : cpu ≤ total) (h3 : 2 ≤ total) (hb : total * (b + 1) < 2 ^ 64) (seed : Nat → σ) (p : Profile)
    (valid delta : List F32) (hl : valid.length = delta.length) :
    Reports total cpu job seed record (Printed (σ := σ) p valid delta) := by
  obtain ⟨k1, k2⟩ := share h1 h2 h3
  refine whole hs hjob total cpu seed fun ds acc hlen hrec hm => ?_
  have h4 := fun d hd => hone d (hrec d hd)
  obtain ⟨-, -, -, -, -, h5⟩ := merged_runs h4 hm
  have h6 : ds.length * b ≤ total * b := Nat.mul_le_mul_right _ (by omega)
  have h7 : total * (b + 1) = total * b + total := Nat.mul_succ _ _
  exact printed h4 hm (by omega) (by omega) (by omega) p valid delta hl

/-- C78: particleswarm-schwefel-statistics.rs -/
theorem C78_swarm_schwefel (P : Platform σ) (hP : Platform.Sound P) (cpu : Nat) (h1 : 1 ≤ cpu) (h2 : cpu ≤ 1000)
    (seed : Nat → σ) : Reports 1000 cpu (swarmJob P.profile (swarmSchwefel P)) seed
      (SwarmRecord 30 3000 (box (minus 500 1) (plus 500 1) 3) (fun x v => v = @TestFunc.schwefelF64 _ P.libm x))
      (Printed (σ := σ) P.profile (List.replicate 3 (plus 4209687 10000)) (List.replicate 3 (plus 1 1))) :=
  whole_printed (F := 3001) (swarmJob_steady _ _) (Swarm.C77_swarm_schwefel P hP 3001 (by omega)) (fun _ => swarm_oneRun) h1 h2
    (by omega) (by omega) seed _ _ _ rfl

/-- C78: particleswarm-schwefel-statistics-full.rs -/
theorem C78_swarm_schwefel_full (P : Platform σ) (hP : Platform.Sound P) (L : Lens σ Stop.GNC) (hL : Platform.Leaves L P)
    (cpu : Nat) (h1 : 1 ≤ cpu) (h2 : cpu ≤ 1000) (seed : Nat → σ) :
    Reports 1000 cpu (swarmJob P.profile (swarmSchwefelFull P L)) seed
      (SwarmRecord 50 1000 (box (minus 500 1) (plus 500 1) 3) (fun x v => v = @TestFunc.schwefelF64 _ P.libm x))
      (Printed (σ := σ) P.profile (List.replicate 3 (plus 4209687 10000)) (List.replicate 3 (plus 1 1))) :=
  whole_printed (F := 1001) (swarmJob_steady _ _) (Swarm.C77_swarm_schwefel_full P hP L hL 1001 (by omega))
    (fun _ => swarm_oneRun) h1 h2 (by omega) (by omega) seed _ _ _ rfl

/-- C78: particleswarm-schwefel-statistics-inertia.rs -/
theorem C78_swarm_schwefel_inertia (P : Platform σ) (hP : Platform.Sound P) (L : Lens σ Stop.GNC) (hL : Platform.Leaves L P)
    (cpu : Nat) (h1 : 1 ≤ cpu) (h2 : cpu ≤ 1000) (seed : Nat → σ) :
    Reports 1000 cpu (swarmJob P.profile (swarmSchwefelInertia P L)) seed
      (SwarmRecord 50 400 (box (minus 500 1) (plus 500 1) 3) (fun x v => v = @TestFunc.schwefelF64 _ P.libm x))
      (Printed (σ := σ) P.profile (List.replicate 3 (plus 4209687 10000)) (List.replicate 3 (plus 1 1))) :=
  whole_printed (F := 401) (swarmJob_steady _ _) (Swarm.C77_swarm_schwefel_inertia P hP L hL 401 (by omega))
    (fun _ => swarm_oneRun) h1 h2 (by omega) (by omega) seed _ _ _ rfl

/-- C78: particleswarm-rastrigin-statistics-inertia.rs -/
theorem C78_swarm_rastrigin_inertia (P : Platform σ) (hP : Platform.Sound P) (L : Lens σ Stop.GNC) (hL : Platform.Leaves L P)
    (cpu : Nat) (h1 : 1 ≤ cpu) (h2 : cpu ≤ 1000) (seed : Nat → σ) :
    Reports 1000 cpu (swarmJob P.profile (swarmRastriginInertia P L)) seed
      (SwarmRecord 50 400 (box (minus 512 100) (plus 512 100) 3) (fun x v => v = @TestFunc.rastriginF64 _ P.libm x))
      (Printed (σ := σ) P.profile (List.replicate 3 (plus 0 1)) (List.replicate 3 (plus 1 10))) :=
  whole_printed (F := 401) (swarmJob_steady _ _) (Swarm.C77_swarm_rastrigin_inertia P hP L hL 401 (by omega))
    (fun _ => swarm_oneRun) h1 h2 (by omega) (by omega) seed _ _ _ rfl

/-- C78: particleswarm-rosenbrock-statistics.rs. The numbers of calls could be so large that their sum overflows. -/
theorem C78_swarm_rosenbrock (P : Platform σ) (L : Lens σ Stop.GNC) (hL : Platform.Leaves L P) (cpu : Nat) (h1 : 1 ≤ cpu)
    (h2 : cpu ≤ 1000) (seed : Nat → σ) : Reports 1000 cpu (swarmJob P.profile (StatPrograms.swarmRosenbrock P L)) seed
      (SwarmRecord 20 (10 ^ 17) (box (minus 2 1) (plus 2 1) 3)
        (fun x v => Returned (TestFunc.rosenbrockF64 P.profile x : M σ F64) v))
      (fun runs d => d.2.sum < 2 ^ 64 →
        Printed (σ := σ) P.profile (List.replicate 3 (plus 1 1)) (List.replicate 3 (plus 1 100)) runs d) := by
  obtain ⟨k1, k2⟩ := share h1 h2 (by omega)
  exact whole (F := 10 ^ 17 + 1) (swarmJob_steady _ _) (Swarm.C77_swarm_rosenbrock P L hL _ (by omega)) 1000 cpu seed
    fun ds acc hlen hrec hm hsum => printed (fun d hd => swarm_oneRun (hrec d hd)) hm (by omega) (by omega) hsum _ _ _ rfl

/-- C78: genetic-schwefel-statistics.rs -/
theorem C78_genetic_schwefel (P : Platform σ) (hP : Platform.Sound P) (cpu : Nat) (h1 : 1 ≤ cpu) (h2 : cpu ≤ 1000)
    (seed : Nat → σ) : Reports 1000 cpu (geneticJob P.profile (StatPrograms.geneticSchwefel P)) seed
      (GeneticRecord 100 50 3000 (box (minus 500 1) (plus 500 1) 3) (fun x v => v = @TestFunc.schwefelF64 _ P.libm x))
      (Printed (σ := σ) P.profile (List.replicate 3 (plus 4209687 10000)) (List.replicate 3 (plus 1 1))) :=
  whole_printed (F := 3001) (geneticJob_steady _ _) (fun s => by
      obtain ⟨r, s', k1, k2, -⟩ := C77_genetic_schwefel P hP 3001 (by omega) s
      exact ⟨r, s', k1, k2⟩) (fun _ => genetic_oneRun) h1 h2
    (by omega) (by omega) seed _ _ _ rfl

/-- C78: genetic-rosenbrock-statistics.rs, if each run ends within `m` generations. -/
theorem C78_genetic_rosenbrock (P : Platform σ) (hP : Platform.Sound P) (L : Lens σ Stop.GNC) (hL : Platform.Leaves L P)
    (cpu : Nat) (h1 : 1 ≤ cpu) (h2 : cpu ≤ 100) (seed : Nat → σ) (m : Nat) (hm : m ≤ 2 ^ 48)
    (hend : ∀ s, geneticJob P.profile (StatPrograms.geneticRosenbrock P L) m s ≠ .error .fuel) :
    Reports 100 cpu (geneticJob P.profile (StatPrograms.geneticRosenbrock P L)) seed
      (GeneticRecord 700 350 m (box (minus 2 1) (plus 2 1) 3)
        (fun x v => Returned (TestFunc.rosenbrockF64 P.profile x : M σ F64) v))
      (Printed (σ := σ) P.profile (List.replicate 3 (plus 1 1)) (List.replicate 3 (plus 1 100))) :=
  whole_printed (F := m) (geneticJob_steady _ _) (fun s => by
      rcases C77_genetic_rosenbrock P hP L hL m (by omega) s with h | h
      · exact h
      · exact absurd h (hend s)) (fun _ => genetic_oneRun) h1 h2
    (by omega) (by omega) seed _ _ _ rfl

/-- C78: with more processors than runs in all there is no run, and `unwrap` of the success rate panics. -/
theorem C78_too_many_processors (job : Nat → M σ (Data (List F32))) (total cpu : Nat) (h : total < cpu) (seed : Nat → σ) (n : Nat)
    (y : Sys σ (List F32)) (hy : Steps (threads total cpu job seed) n .start y) (acc : Data (List F32))
    (hacc : y.main = .finished acc) (p : Profile) (valid delta : List F32) (hl : valid.length = delta.length) (s : σ) :
    acc = (⟨[], []⟩, []) ∧ report p valid delta acc s = .error .unwrap := by
  obtain ⟨order, hperm, ds, hds, hm⟩ := Workers.C76_merged _ n y hy acc hacc
  have hz : (threads total cpu job seed).runCount = 0 := Nat.div_eq_of_lt h
  have hnil : order.flatMap ds = [] := by
    rw [List.flatMap_eq_nil_iff]
    intro i hi
    exact List.length_eq_zero_iff.1 ((hds i hi).1.trans hz)
  rw [hnil] at hm
  obtain ⟨⟨rs, conv⟩, calls⟩ := acc
  obtain ⟨e1, e2, e3⟩ := hm
  have e1 : rs = [] := e1
  have e2 : conv = [] := e2
  have e3 : calls = [] := e3
  subst e1 e2 e3
  refine ⟨rfl, ?_⟩
  obtain ⟨good, hgood⟩ := (C59_vec_new (γ := F64) valid delta s).1 hl
  exact M.bind_eq_error.2 (.inr ⟨good, s, hgood, rfl⟩)

/-- Always one, if that is possible, else the least. -/
def onesRng : Rng (Unit × Stop.GNC) where
  nat lo _ s := (lo, s)
  natIncl lo _ s := (lo, s)
  fl lo hi s := (if lo.le Fl.one && Fl.one.lt hi then Fl.one else lo, s)
  flIncl lo hi s := (if lo.le Fl.one && Fl.one.le hi then Fl.one else lo, s)
  nat_range lo hi s h := ⟨Nat.le_refl _, h⟩
  natIncl_range lo hi s h := ⟨Nat.le_refl _, h⟩
  fl_range lo hi s h h1 h2 := by
    dsimp only
    split
    · next h => simpa using h
    · exact ⟨Fl.le_refl (Fl.isNan_of_isFinite h1), h⟩
  flIncl_range lo hi s h h1 h2 := by
    dsimp only
    split
    · next h => simpa using h
    · exact ⟨Fl.le_refl (Fl.isNan_of_isFinite h1), h⟩

/-- A platform with these numbers. -/
def onesPlatform : Platform (Unit × Stop.GNC) where
  rng := onesRng
  profile := .debug
  libm := ⟨id, fun x _ => x, fun _ => Fl.zero, fun _ => Fl.one⟩
  print := fun _ s => .ok ((), s)
  showGene := fun _ _ => "x"
  showGoal := fun _ _ => "v"

/-- Its runs of genetic-rosenbrock-statistics.rs end after one generation. -/
theorem ones_end (s) : geneticJob .debug (StatPrograms.geneticRosenbrock onesPlatform (Lens.snd _ _)) 2 s ≠ .error .fuel := by
  rw [made_job (rosenbrock_make _ _ _)]
  have : (match geneticJob .debug (pure (rosenbrockMade onesPlatform (rosenbrockStops (Lens.snd _ _) (Fl.ofRat false 1 1000000) .debug))) 2
      ((), Stop.GNC.new 2000 (Fl.ofRat false 1 10000000)) with
    | .ok _ => true
    | .error _ => false) = true := by decide +kernel
  intro h
  have h : geneticJob .debug (pure (rosenbrockMade onesPlatform (rosenbrockStops (Lens.snd _ _) (Fl.ofRat false 1 1000000) .debug))) 2
      ((), Stop.GNC.new 2000 (Fl.ofRat false 1 10000000)) = .error .fuel := h
  rw [h] at this
  cases this

theorem ones_sound : Platform.Sound onesPlatform :=
  ⟨fun _ s => ⟨(), _, rfl, trivial⟩, fun _ _ => ⟨(by decide +kernel : Within 1 (Fl.zero : F32)),
    (by decide +kernel : Within 1 (Fl.one : F32))⟩⟩

theorem ones_leaves : Platform.Leaves (Lens.snd _ _) onesPlatform :=
  ⟨⟨fun _ _ _ => rfl, fun _ _ _ => rfl, fun _ _ _ => rfl, fun _ _ _ => rfl⟩, fun x s a s' h => by cases h; rfl⟩

/-- Three processors, which do 33 runs each: there is an execution, and its report is on 99 runs. -/
example : ∃ n y acc, Steps (threads 100 3 (geneticJob .debug (StatPrograms.geneticRosenbrock onesPlatform (Lens.snd _ _)))
      (fun _ => ((), Stop.GNC.new 0 Fl.zero))) n .start y ∧ y.main = .finished acc ∧ acc.1.results.length = 99 ∧
      Printed (σ := Unit × Stop.GNC) .debug (List.replicate 3 (plus 1 1)) (List.replicate 3 (plus 1 100)) 99 acc := by
  have hjob : ∀ s, ∃ r s', geneticJob .debug (StatPrograms.geneticRosenbrock onesPlatform (Lens.snd _ _)) 2 s = .ok (r, s') ∧
      OneRun (700 + 350 * 2) r := by
    intro s
    rcases C77_genetic_rosenbrock onesPlatform ones_sound (Lens.snd _ _) ones_leaves 2 (by omega) s with ⟨r, s', h1, h2⟩ | h
    · exact ⟨r, s', h1, genetic_oneRun h2⟩
    · exact absurd h (ones_end s)
  obtain ⟨n, y, acc, h1, h2, -⟩ := Workers.C76_any_order _ (job_safe (geneticJob_steady .debug _) hjob 100 3
    (fun _ => ((), Stop.GNC.new 0 Fl.zero))).1 [0, 1, 2] (List.Perm.refl _)
  obtain ⟨-, -, h3⟩ := C78_genetic_rosenbrock onesPlatform ones_sound (Lens.snd _ _) ones_leaves 3 (by omega) (by omega) _ 2
    (by omega) ones_end n y h1
  obtain ⟨⟨ds, h4, h5, h6⟩, h7⟩ := h3 acc h2
  exact ⟨n, y, acc, h1, h2, (merged_runs (fun d hd => genetic_oneRun (h5 d hd)) h6).1.trans h4, h7⟩

/-- And on a machine with more processors than runs: there is an execution, and its report panics. -/
example : ∃ n y acc, Steps (threads 1000 1024 (swarmJob .debug (StatPrograms.swarmSchwefel Swarm.demoPlatform))
      (fun _ => (([], []), Stop.GNC.new 0 Fl.zero))) n .start y ∧ y.main = .finished acc ∧
      report .debug (List.replicate 3 (plus 4209687 10000)) (List.replicate 3 (plus 1 1)) acc () = .error .unwrap := by
  obtain ⟨n, y, acc, h1, h2, -⟩ := Workers.C76_any_order _ (job_safe (F := 3001) (swarmJob_steady .debug _)
    (Swarm.C77_swarm_schwefel Swarm.demoPlatform Swarm.demo_sound 3001 (by omega)) 1000 1024
    (fun _ => (([], []), Stop.GNC.new 0 Fl.zero))).1 (List.range 1024) (List.Perm.refl _)
  refine ⟨n, y, acc, h1, h2, ?_⟩
  rw [(C78_too_many_processors _ 1000 1024 (by omega) _ n y h1 acc h2 .debug [] [] rfl (([], []), Stop.GNC.new 0 Fl.zero)).1]
  rfl

end Verif.Props
