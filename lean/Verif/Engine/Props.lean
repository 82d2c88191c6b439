import Verif.Engine.Lemmas
import Verif.Corpus.Formatter
import Mathlib.Tactic.Ring
import Mathlib.Tactic.Linarith

/-! # Property theorems C01-C03, C05-C08, C13 (job engine and frequency lists) -/

namespace Verif.Engine
open Verif.Py Verif.Vocab Verif.Corpus

variable {J A R : Type}

/-! ## C02: the engine -/

/-- **C02**, conservation: at every moment of every run without worker deaths, the files handled so far, those in
the hands of workers and those queued or still to be queued are the submitted files, each once. -/
theorem C02_each_file_once (p : Prog J A R) (W : Nat) (files : List J) (as : List Action) (s : State J A R)
    (hc : CrashFree as) (h : exec p as (start p W files) = some s) :
    (finished p as (start p W files) ++ held s ++ jobs s.queue ++ jobs s.pending).Perm files := by
  have := finished_conserved hc h
  rw [← Multiset.coe_eq_coe]
  simp only [← Multiset.coe_add]
  rw [this]
  simp [start, held, jobs_append]

/-- **C02**, termination: no run is longer than `3·files + 4·workers` actions, whatever happens. -/
theorem C02_runs_finite (p : Prog J A R) (W : Nat) (files : List J) (as : List Action) (s : State J A R)
    (h : exec p as (start p W files) = some s) : as.length ≤ 3 * files.length + 4 * W := by
  have := exec_measure h
  rw [measure_start] at this
  omega

/-- **C02**, no deadlock: a run nobody can continue has an empty job queue, every worker exited, each after
exactly one stop marker, and all files were handled. -/
theorem C02_maximal_run (p : Prog J A R) (W : Nat) (hW : 1 ≤ W) (files : List J) (as : List Action)
    (s : State J A R) (hc : CrashFree as) (h : exec p as (start p W files) = some s) (hm : Maximal p s) :
    s.queue = [] ∧ s.pending = [] ∧ (∀ w ∈ s.workers, ∃ a, w = .done a) ∧ s.workers.length = W ∧
    (∀ i < W, stops p i as (start p W files) = 1) ∧
    (finished p as (start p W files)).Perm files := by
  obtain ⟨h1, h2, h3⟩ := maximal_joined hW hc h hm
  refine ⟨h2, h1, h3, by rw [workers_length h]; simp [start], ?_, ?_⟩
  · intro i hi
    have hw : (start p W files).workers[i]? = some (.idle p.init) := by
      simp [start, hi]
    obtain ⟨w', hw', e⟩ := stops_eq hc h i hw
    obtain ⟨a, rfl⟩ := h3 w' (List.mem_iff_getElem?.2 ⟨i, hw'⟩)
    simpa [stopped] using e.symm
  · have := C02_each_file_once p W files as s hc h
    have hj : Joined s := ⟨h1, fun w hw => Or.inl (h3 w hw)⟩
    simpa [held_of_joined hj, h1, h2] using this

/-- A complete run with two files and two workers (the second worker takes the first file). -/
def sampleRun : List Action :=
  [.produce, .take 1, .produce, .produce, .take 0, .work 1, .take 1, .work 0, .work 1, .produce, .take 0, .work 0]

example : CrashFree sampleRun ∧ ∃ s, exec (perJob (fun n : Nat => n + 1)) sampleRun
    (start (perJob (fun n : Nat => n + 1)) 2 [5, 6]) = some s ∧ s.results = [6, 7] ∧ Joined s ∧
    Maximal (perJob (fun n : Nat => n + 1)) s := by
  refine ⟨by intro i; simp [sampleRun], ⟨[], [], [.done (), .done ()], [6, 7]⟩, rfl, rfl, ⟨rfl, ?_⟩, ?_⟩
  · intro w hw
    simp at hw
    exact Or.inl ⟨(), hw⟩
  · intro a ha
    cases a with
    | produce => rfl
    | take i => rcases i with _ | _ | i <;> simp [step]
    | work i => rcases i with _ | _ | i <;> simp [step]
    | crash i => exact absurd rfl (ha i)

/-! ## C01, C03: frequency lists -/

variable {ℓ μ κ : Type} [LinearOrder κ]

/-- A returned frequency list was made from the tallies of all files, each once: with any worker deaths. -/
theorem perJob_returned {f : J → R} {W : Nat} {files : List J} {as : List Action} {s : State J Unit R} {rs : List R}
    (h : exec (perJob f) as (start (perJob f) W files) = some s) (hr : readN files.length s = some rs) :
    ∃ js : List J, js.Perm files ∧ rs = js.map f := by
  have hres := perJob_results h
  simp only [start, List.nil_append] at hres
  obtain ⟨lost, hl⟩ := finished_le h
  have h0 : (held (start (perJob f) W files) : Multiset J) + jobs (start (perJob f) W files).queue +
      jobs (start (perJob f) W files).pending = (files : Multiset J) := by
    simp [start, held, jobs_append]
  rw [h0] at hl
  unfold readN at hr
  split at hr
  · next hn =>
    injection hr with hr
    have hlen : (finished (perJob f) as (start (perJob f) W files)).length = s.results.length := by
      rw [hres]; simp [start]
    have hcard := congrArg Multiset.card hl
    simp only [Multiset.card_add, Multiset.coe_card] at hcard
    refine ⟨finished (perJob f) as (start (perJob f) W files), ?_, ?_⟩
    · rw [← Multiset.coe_eq_coe, ← hl]
      have e1 : lost = 0 := Multiset.card_eq_zero.1 (by omega)
      have e2 : (held s : Multiset J) = 0 := Multiset.card_eq_zero.1 (by rw [Multiset.coe_card]; omega)
      have e3 : (jobs s.queue : Multiset J) = 0 := Multiset.card_eq_zero.1 (by rw [Multiset.coe_card]; omega)
      have e4 : (jobs s.pending : Multiset J) = 0 := Multiset.card_eq_zero.1 (by rw [Multiset.coe_card]; omega)
      rw [e1, e2, e3, e4]; simp
    · rw [← hr, List.take_of_length_le (by omega), hres]
      rfl
  · cases hr

/-- **C01 and the safety part of C03.** Whatever the workers, the interleaving and the worker deaths: if
`build_item_freq` returns, the frequency of every type is the number of its occurrences in all files (the type is
absent exactly when there is none). -/
theorem C01_freq_list (fmt : Formatter ℓ μ κ) (W : Nat) (files : List (List ℓ)) (as : List Action)
    (s : State (List ℓ) Unit (Dict κ Int)) (rs : List (Dict κ Int))
    (h : exec (perJob (itemFreqFile fmt)) as (start (perJob (itemFreqFile fmt)) W files) = some s)
    (_hj : Joined s) (hr : readN files.length s = some rs) (k : κ) :
    (mergeFreqs rs).freq.get? k =
      let total := (files.map (occurrences fmt k)).sum
      if 0 < total then some (total : Int) else none := by
  obtain ⟨js, hp, rfl⟩ := perJob_returned h hr
  rw [mergeFreqs_files]
  have : (js.map (occurrences fmt k)).sum = (files.map (occurrences fmt k)).sum := (hp.map _).sum_eq
  simp only [this]

/-- **C01**, the call does return: with at least one worker and no deaths, every complete run lets the parent
read all its results. -/
theorem C01_returns (fmt : Formatter ℓ μ κ) (W : Nat) (hW : 1 ≤ W) (files : List (List ℓ)) (as : List Action)
    (s : State (List ℓ) Unit (Dict κ Int)) (hc : CrashFree as)
    (h : exec (perJob (itemFreqFile fmt)) as (start (perJob (itemFreqFile fmt)) W files) = some s)
    (hm : Maximal (perJob (itemFreqFile fmt)) s) :
    Joined s ∧ ∃ rs, readN files.length s = some rs := by
  obtain ⟨h1, h2, h3, _, _, h6⟩ := C02_maximal_run _ W hW files as s hc h hm
  refine ⟨⟨h2, fun w hw => Or.inl (h3 w hw)⟩, ?_⟩
  have hres := perJob_results h
  simp only [start, List.nil_append] at hres
  refine ⟨_, if_pos ?_⟩
  rw [hres, List.length_map]
  exact h6.length_eq.ge

/-- **C03**, safety: the statement of C01 with deaths made explicit (`as` may contain crashes). -/
theorem C03_never_undercounts (fmt : Formatter ℓ μ κ) (W : Nat) (files : List (List ℓ)) (as : List Action)
    (s : State (List ℓ) Unit (Dict κ Int))
    (h : exec (perJob (itemFreqFile fmt)) as (start (perJob (itemFreqFile fmt)) W files) = some s) (hj : Joined s) :
    readN files.length s = none ∨ ∃ rs, readN files.length s = some rs ∧
      ∀ k, ((mergeFreqs rs).freq.get? k).getD 0 = ((files.map (occurrences fmt k)).sum : Int) := by
  cases hr : readN files.length s with
  | none => exact Or.inl rfl
  | some rs =>
    refine Or.inr ⟨rs, rfl, fun k => ?_⟩
    rw [C01_freq_list fmt W files as s rs h hj hr k]
    simp only
    split
    · rfl
    · simp only [Option.getD_none]; omega

/-- **C03**, blocking: once a worker died holding a file, the parent never gets its results, whatever happens
later. -/
theorem C03_death_with_file_blocks (f : J → R) (W : Nat) (files : List J) (as bs : List Action) (i : Nat) (j : J)
    (s s' : State J Unit R) (h : exec (perJob f) as (start (perJob f) W files) = some s)
    (hb : s.workers[i]? = some (.busy () j)) (h' : exec (perJob f) (.crash i :: bs) s = some s') :
    readN files.length s' = none := by
  have hres := perJob_results h
  simp only [start, List.nil_append] at hres
  obtain ⟨lost, hl⟩ := finished_le h
  have h0 : (held (start (perJob f) W files) : Multiset J) + jobs (start (perJob f) W files).queue +
      jobs (start (perJob f) W files).pending = (files : Multiset J) := by
    simp [start, held, jobs_append]
  rw [h0] at hl
  simp only [exec, step, hb] at h'
  have h'' : exec (perJob f) bs { s with workers := s.workers.set i .crashed } = some s' := h'
  have hres' := perJob_results h''
  obtain ⟨lost', hl'⟩ := finished_le h''
  have c1 := congrArg Multiset.card hl
  have c2 := congrArg Multiset.card hl'
  simp only [Multiset.card_add, Multiset.coe_card] at c1 c2
  have e := sum_map_set workerJobs s.workers i _ .crashed hb
  have hh := held_eq s
  have hh' := held_eq { s with workers := s.workers.set i (.crashed : WState J Unit) }
  have c3 : (held s).length = (held { s with workers := s.workers.set i (.crashed : WState J Unit) }).length + 1 := by
    rw [← Multiset.coe_card, ← Multiset.coe_card, hh, hh']
    have := congrArg Multiset.card e
    simp only [workerJobs, Multiset.card_add, Multiset.card_singleton, Multiset.card_zero] at this
    show Multiset.card (List.map workerJobs s.workers).sum =
      Multiset.card (List.map workerJobs (s.workers.set i .crashed)).sum + 1
    omega
  unfold readN
  rw [if_neg]
  have l1 := congrArg List.length hres
  have l2 := congrArg List.length hres'
  simp only [List.length_append, List.length_map] at l1 l2
  simp only [start] at c1 l1
  omega

/-- Non-vacuity for C03: a run in which a worker dies holding the file. -/
example : ∃ s s', exec (perJob (fun n : Nat => n)) [.produce, .take 0] (start (perJob (fun n : Nat => n)) 2 [7]) = some s ∧
    s.workers[0]? = some (.busy () 7) ∧
    exec (perJob (fun n : Nat => n)) [.crash 0, .produce, .take 1, .work 1, .produce] s = some s' ∧ Joined s' := by
  refine ⟨⟨[none, none], [], [.busy () 7, .idle ()], []⟩, ⟨[], [none], [.crashed, .done ()], []⟩, rfl, rfl, rfl, rfl, ?_⟩
  intro w hw
  simp at hw
  rcases hw with rfl | rfl
  · exact Or.inr rfl
  · exact Or.inl ⟨(), rfl⟩

/-! ## C13: frequency list of one file -/

/-- **C13.** Each type gets the number of matching lines of that type. -/
theorem C13_file_freq (fmt : Formatter ℓ μ κ) (file : List ℓ) (k : κ) :
    (itemFreqFile fmt file).get? k =
      let n := (file.filterMap fmt.matchLine).countP (fun m => decide (fmt.getType m = k))
      if n = 0 then none else some (n : Int) := by
  have : occurrences fmt k file = (file.filterMap fmt.matchLine).countP (fun m => decide (fmt.getType m = k)) := by
    unfold occurrences
    rw [List.countP_filterMap]
    apply List.countP_congr
    intro l _
    cases fmt.matchLine l <;> simp
  rw [itemFreqFile_get?, this]
  simp only
  split <;> split <;> first | rfl | omega

/-- **C13.** The sum of all frequencies is the number of matching lines. -/
theorem C13_total (fmt : Formatter ℓ μ κ) (file : List ℓ) :
    sumFreq (mk' (itemFreqFile fmt file)) = (file.filterMap fmt.matchLine).length := by
  have key : ∀ (file : List ℓ) (v : Vocab κ), v.freq.WF →
      sumFreq (file.foldl (itemFreqLine fmt) v) = sumFreq v + (file.filterMap fmt.matchLine).length := by
    intro file
    induction file with
    | nil => intro v _; simp
    | cons l file ih =>
      intro v hv
      have hw : (itemFreqLine fmt v l).freq.WF := by
        unfold itemFreqLine; split
        · exact hv
        · exact WF_increment hv _ _
      rw [List.foldl_cons, ih _ hw]
      unfold itemFreqLine
      cases h : fmt.matchLine l with
      | none => simp [h]
      | some m =>
        simp only [sumFreq_increment hv, List.filterMap_cons, h, List.length_cons]
        push_cast; omega
  have := key file Vocab.empty Dict.WF_nil
  simpa [sumFreq, Vocab.empty, mk', Dict.values, itemFreqFile] using this

/-- **C13.** Lines that do not match (separators among them) play no role, and splitting a file adds up. -/
theorem C13_split (fmt : Formatter ℓ μ κ) (a b : List ℓ) (k : κ) :
    ((itemFreqFile fmt (a ++ b)).get? k).getD 0 =
      ((itemFreqFile fmt a).get? k).getD 0 + ((itemFreqFile fmt b).get? k).getD 0 ∧
    itemFreqFile fmt a = itemFreqFile fmt (a.filter (fun l => (fmt.matchLine l).isSome)) := by
  constructor
  · simp only [itemFreqFile_get?, occurrences_append]
    repeat' split
    all_goals simp only [Option.getD_some, Option.getD_none]; omega
  · unfold itemFreqFile
    congr 1
    generalize (Vocab.empty : Vocab κ) = v
    induction a generalizing v with
    | nil => rfl
    | cons l a ih =>
      rw [List.foldl_cons, ih]
      cases h : fmt.matchLine l with
      | none => simp [itemFreqLine, h]
      | some m => simp [h]

/-- Non-vacuity for C01/C13: lines are numbers, multiples of 10 are no match, types are the last digit. -/
def sampleFmt : Formatter Nat Nat Nat :=
  { matchLine := fun n => if n % 10 = 0 then none else some n, isSep := fun n => n % 10 == 0,
    getType := fun n => n % 10, getColloc := fun n => n % 10 }

example : itemFreqFile sampleFmt [11, 20, 32, 41] = [(1, 2), (2, 1)] ∧
    (mergeFreqs [itemFreqFile sampleFmt [11, 20, 32, 41], itemFreqFile sampleFmt [12]]).freq = [(1, 2), (2, 2)] := by
  decide

/-! ## C05: token retrieval -/

/-- What a token worker starts from in a first call, and how a file extends it. -/
def tokProg {Tok κ : Type} (found : J → κ → List Tok) : Prog J (Bool × (κ → List Tok)) (TokRes (κ → List Tok)) :=
  tokenProg (fun _ => []) (fun t j k => t k ++ found j k)

/-- The claim: whenever the call returns, every token of every file is in the result. -/
def C05_claim {Tok κ : Type} (found : J → κ → List Tok) (W : Nat) (files : List J) : Prop :=
  ∀ as s rs, CrashFree as → exec (tokProg found) as (start (tokProg found) W files) = some s → Joined s →
    readN files.length s = some rs → ∀ k, (mergeToks rs k).Perm (files.flatMap (fun j => found j k))

/-- **C05 is false**: with two workers and one file the idle worker's empty result may be read instead of the
other worker's tokens. -/
theorem C05_false : ¬ C05_claim (fun (j : Nat) (_ : Unit) => [j]) 2 [7] := by
  intro h
  have := h [.produce, .take 0, .produce, .take 1, .work 1, .produce, .work 0, .take 0, .work 0]
    ⟨[], [], [.done (false, fun _ => [7]), .done (true, fun _ => [])], [.toks (fun _ => []), .toks (fun _ => [7])]⟩ _
    (by intro i; simp) rfl ⟨rfl, by
      intro w hw
      simp at hw
      rcases hw with rfl | rfl
      · exact Or.inl ⟨_, rfl⟩
      · exact Or.inl ⟨_, rfl⟩⟩ rfl ()
  exact absurd this.length_eq (by decide)

/-- **C05 (partial).**  The full claim is `C05_claim`, which is false in general (`C05_false`).  It holds for
every complete run in which each worker got at least one file; and in every complete run the number of results
exceeds the number read by exactly the number of workers that got no file. -/
theorem C05_tokens_partial {Tok κ : Type} (found : J → κ → List Tok) (W : Nat) (files : List J) (as : List Action)
    (s : State J (Bool × (κ → List Tok)) (TokRes (κ → List Tok))) (hc : CrashFree as)
    (h : exec (tokProg found) as (start (tokProg found) W files) = some s) (hj : Joined s)
    (hq : s.queue = []) :
    s.results.length = files.length +
      ((List.range W).filter (fun i => (received (tokProg found) i as (start (tokProg found) W files)).isEmpty)).length ∧
    ((∀ i < W, received (tokProg found) i as (start (tokProg found) W files) ≠ []) →
      ∃ rs, readN files.length s = some rs ∧
        ∀ k, (mergeToks rs k).Perm (files.flatMap (fun j => found j k))) := by
  have hlen : s.workers.length = W := by rw [workers_length h]; simp [start]
  -- every worker exited, with `first` set exactly if it got no file
  have hwk : ∀ i < W, ∃ a, s.workers[i]? = some (.done a) ∧
      a.1 = (received (tokProg found) i as (start (tokProg found) W files)).isEmpty := by
    intro i hi
    have hw : (start (tokProg found) W files).workers[i]? = some (.idle (tokProg found).init) := by
      simp [start, hi]
    obtain ⟨w', hw', e⟩ := firstFlag_eq hc h i hw
    obtain ⟨w'', hw'', e2⟩ := stops_eq hc h i hw
    rw [hw'] at hw''; cases hw''
    rcases hj.2 w' (List.mem_iff_getElem?.2 ⟨i, hw'⟩) with ⟨a, rfl⟩ | rfl
    · exact ⟨a, hw', by simpa [firstFlag, tokProg, tokenProg] using e⟩
    · exfalso
      have hno : ∀ w ∈ s.workers, w ≠ .crashed := by
        refine exec_invariant (tokProg found) (fun t => ∀ w ∈ t.workers, w ≠ .crashed) (fun a => ∀ i, a ≠ .crash i)
          ?_ as (start (tokProg found) W files) s (fun a ha i hi => hc i (hi ▸ ha)) ?_ h
        · intro a t t' hok hI hs
          rcases step_cases hs with ⟨x, rest, _, hp, rfl⟩ | ⟨i, b, j, q, _, h1, h2, rfl⟩ |
            ⟨i, b, q, _, h1, h2, rfl⟩ | ⟨i, b, j, _, h1, rfl⟩ | ⟨i, b, _, h1, rfl⟩ | ⟨i, w, h, _, _, _, rfl⟩
          · exact hI
          · intro w hw; rcases List.mem_or_eq_of_mem_set hw with h | rfl <;> [exact hI w h; simp]
          · intro w hw; rcases List.mem_or_eq_of_mem_set hw with h | rfl <;> [exact hI w h; simp]
          · intro w hw; rcases List.mem_or_eq_of_mem_set hw with h | rfl <;> [exact hI w h; simp]
          · intro w hw; rcases List.mem_or_eq_of_mem_set hw with h | rfl <;> [exact hI w h; simp]
          · exact absurd h (hok i)
        · intro w hw
          simp only [start, List.mem_replicate] at hw
          rw [hw.2]; simp
      exact hno _ (List.mem_iff_getElem?.2 ⟨i, hw'⟩) rfl
  -- number of results
  let w : Weights J (Bool × (κ → List Tok)) (TokRes (κ → List Tok)) ℤ :=
    { job := fun _ => 1, mark := 0, idle := fun a => if a.1 then 0 else 1, stopping := fun a => if a.1 then 0 else 1,
      done := fun a => if a.1 then -1 else 0, res := fun _ => 1 }
  have hb : w.Balanced (tokProg found) := by
    refine ⟨fun _ => by simp [w], ?_, ?_⟩
    · rintro ⟨b, t⟩ j; cases b <;> simp [w, tokProg, tokenProg]
    · rintro ⟨b, t⟩; cases b <;> simp [w, tokProg, tokenProg]
  have e := Weights.conserved hb hc h
  rw [Weights.total_start] at e
  simp only [Weights.total, hj.1, hq, List.map_nil, List.sum_nil, zero_add] at e
  have e1 : (s.results.map w.res).sum = s.results.length := by simp [w]
  have e2 : (files.map w.job).sum = files.length := by simp [w]
  have e3 : (s.workers.map w.worker).sum = - (((List.range W).filter
      (fun i => (received (tokProg found) i as (start (tokProg found) W files)).isEmpty)).length : ℤ) := by
    have hmap : s.workers.map w.worker = (List.range W).map (fun i =>
        if (received (tokProg found) i as (start (tokProg found) W files)).isEmpty then (-1 : ℤ) else 0) := by
      apply List.ext_getElem?
      intro i
      by_cases hi : i < W
      · obtain ⟨a, h1, h2⟩ := hwk i hi
        simp only [List.getElem?_map, h1, Option.map_some, List.getElem?_range hi, Weights.worker, w]
        rw [h2]
      · simp [hlen, hi]
    rw [hmap]
    generalize List.range W = l
    induction l with
    | nil => simp
    | cons x l ih =>
      rw [List.map_cons, List.sum_cons, ih, List.filter_cons]
      split
      · simp only [List.length_cons]; push_cast; ring
      · simp
  have e4 : w.idle (tokProg found).init = 0 := by simp [w, tokProg, tokenProg]
  rw [e1, e2, e3, e4] at e
  simp only [nsmul_zero, add_zero, w] at e
  have hcount : s.results.length = files.length + ((List.range W).filter
      (fun i => (received (tokProg found) i as (start (tokProg found) W files)).isEmpty)).length := by omega
  refine ⟨hcount, ?_⟩
  intro hall
  have hzero : (List.range W).filter
      (fun i => (received (tokProg found) i as (start (tokProg found) W files)).isEmpty) = [] := by
    rw [List.filter_eq_nil_iff]
    intro i hi
    simpa using hall i (List.mem_range.1 hi)
  rw [hzero, List.length_nil, add_zero] at hcount
  refine ⟨s.results, ?_, ?_⟩
  · unfold readN; rw [if_pos hcount.ge, List.take_of_length_le hcount.le]
  -- the tokens
  · intro k
    let v : Weights J (Bool × (κ → List Tok)) (TokRes (κ → List Tok)) (Multiset Tok) :=
      { job := fun j => (found j k : Multiset Tok), mark := 0, idle := fun a => (a.2 k : Multiset Tok),
        stopping := fun a => (a.2 k : Multiset Tok), done := fun _ => 0,
        res := fun r => match r with | .toks t => (t k : Multiset Tok) | .minus1 => 0 }
    have hb' : v.Balanced (tokProg found) := by
      refine ⟨fun _ => by simp [v], ?_, ?_⟩
      · rintro ⟨b, t⟩ j; cases b <;> simp [v, tokProg, tokenProg]
      · rintro ⟨b, t⟩; simp [v, tokProg, tokenProg]
    have e := Weights.conserved hb' hc h
    rw [Weights.total_start] at e
    simp only [Weights.total, hj.1, hq, List.map_nil, List.sum_nil, zero_add] at e
    have z : (s.workers.map v.worker).sum = 0 := by
      apply List.sum_eq_zero
      intro x hx
      obtain ⟨y, hy, rfl⟩ := List.mem_map.1 hx
      rcases hj.2 y hy with ⟨a, rfl⟩ | rfl <;> rfl
    have z2 : v.idle (tokProg found).init = 0 := by simp [v, tokProg, tokenProg]
    have z3 : v.mark = 0 := rfl
    rw [z, z2, z3] at e
    simp only [zero_add, nsmul_zero, add_zero] at e
    rw [← Multiset.coe_eq_coe]
    have r1 : ∀ l : List (TokRes (κ → List Tok)), (l.map v.res).sum = (mergeToks l k : Multiset Tok) := by
      intro l
      unfold mergeToks
      induction l with
      | nil => rfl
      | cons x l ih =>
        rw [List.map_cons, List.sum_cons, ih]
        cases x <;> simp [v]
    have r2 : ∀ l : List J, (l.map v.job).sum = (l.flatMap (fun j => found j k) : Multiset Tok) := by
      intro l
      induction l with
      | nil => rfl
      | cons x l ih => rw [List.map_cons, List.sum_cons, ih, List.flatMap_cons, ← Multiset.coe_add]
    rw [← r1, ← r2, e]

/-- Non-vacuity: a complete run in which both workers get a file. -/
example : let p := tokProg (fun (j : Nat) (_ : Unit) => [j])
    ∃ s, exec p sampleRun (start p 2 [5, 6]) = some s ∧ Joined s ∧ s.queue = [] ∧
      received p 0 sampleRun (start p 2 [5, 6]) = [6] ∧ received p 1 sampleRun (start p 2 [5, 6]) = [5] := by
  refine ⟨⟨[], [], [.done (false, fun _ => [6]), .done (false, fun _ => [5])],
    [.toks (fun _ => [5]), .toks (fun _ => [6])]⟩, rfl, ⟨rfl, ?_⟩, rfl, rfl, rfl⟩
  intro w hw
  simp at hw
  rcases hw with rfl | rfl <;> exact Or.inl ⟨_, rfl⟩

/-! ## C06, C07: dependency matches -/

theorem depMerge_eq {ι Mt : Type} (acc : ι → List Mt) (rs : List (ι → List Mt)) (m : ι) :
    depMerge acc rs m = acc m ++ rs.flatMap (fun r => r m) := by
  unfold depMerge
  induction rs generalizing acc with
  | nil => simp
  | cons r rs ih => rw [List.foldl_cons, ih]; simp

/-- One call on a handler with matches `acc`: for every macro the old matches, and for every file the old matches
again with the file's matches, in some order. -/
theorem depCall_perm {ι Mt : Type} {found : J → ι → List Mt} {W : Nat} {files : List J} {acc acc' : ι → List Mt}
    (h : DepCall found W files acc acc') (m : ι) :
    (acc' m).Perm (acc m ++ files.flatMap (fun j => acc m ++ found j m)) := by
  obtain ⟨as, s, rs, hc, he, hj, hr, rfl⟩ := h
  obtain ⟨js, hp, rfl⟩ := perJob_returned he hr
  rw [depMerge_eq]
  apply List.Perm.append_left
  rw [List.flatMap_map]
  exact hp.flatMap_right _

/-- **C06.** A first call yields for every macro the matches of all files, each once, whatever the schedule and
the worker count; so every entry of the matrix is the number of such matches. -/
theorem C06_first_call {ι Mt κ : Type} [DecidableEq κ] (found : J → ι → List Mt) (W : Nat) (files : List J)
    (acc' : ι → List Mt) (h : DepCall found W files (fun _ => []) acc') :
    (∀ m, (acc' m).Perm (files.flatMap (fun j => found j m))) ∧
    ∀ (macros : List ι) (strings : ι → Mt → κ × κ) (t f : κ), depEntry macros strings acc' t f =
      (macros.map (fun m => (files.map (fun j =>
        (found j m).countP (fun x => decide (strings m x = (t, f))))).sum)).sum := by
  have hp : ∀ m, (acc' m).Perm (files.flatMap (fun j => found j m)) := by
    intro m; simpa using depCall_perm h m
  refine ⟨hp, ?_⟩
  intro macros strings t f
  unfold depEntry
  congr 1
  apply List.map_congr_left
  intro m _
  rw [((hp m).map _).sum_eq]
  induction files with
  | nil => rfl
  | cons j files ih =>
    rw [List.flatMap_cons, List.map_append, List.sum_append, List.map_cons, List.sum_cons]
    congr 1
    · generalize found j m = l
      clear * -
      induction l with
      | nil => rfl
      | cons x l ih =>
        rw [List.map_cons, List.sum_cons, List.countP_cons, ih]
        simp only [decide_eq_true_eq]; omega
    · have : ∀ fs : List J, ((fs.flatMap (fun j => found j m)).map (fun x => if strings m x = (t, f) then 1 else 0)).sum
          = (fs.map (fun j => (found j m).countP (fun x => decide (strings m x = (t, f))))).sum := by
        clear * -
        intro fs
        induction fs with
        | nil => rfl
        | cons j fs ih =>
          rw [List.flatMap_cons, List.map_append, List.sum_append, List.map_cons, List.sum_cons, ih]
          congr 1
          generalize found j m = l
          induction l with
          | nil => rfl
          | cons x l ih =>
            rw [List.map_cons, List.sum_cons, List.countP_cons, ih]
            simp only [decide_eq_true_eq]; omega
      exact this files

theorem depEntry_call {ι Mt κ : Type} [DecidableEq κ] {found : J → ι → List Mt} {W : Nat} {files : List J}
    {acc acc' : ι → List Mt} (h : DepCall found W files acc acc') (macros : List ι) (strings : ι → Mt → κ × κ) (t f : κ) :
    depEntry macros strings acc' t f =
      (files.length + 1) * depEntry macros strings acc t f +
        depEntry macros strings (fun m => files.flatMap (fun j => found j m)) t f := by
  unfold depEntry
  induction macros with
  | nil => simp
  | cons m ms ih =>
    simp only [List.map_cons, List.sum_cons]
    rw [ih, ((depCall_perm h m).map _).sum_eq]
    have : ∀ fs : List J, ((fs.flatMap (fun j => acc m ++ found j m)).map
        (fun x => if strings m x = (t, f) then 1 else 0)).sum =
        fs.length * ((acc m).map (fun x => if strings m x = (t, f) then 1 else 0)).sum +
        ((fs.flatMap (fun j => found j m)).map (fun x => if strings m x = (t, f) then 1 else 0)).sum := by
      intro fs
      induction fs with
      | nil => simp
      | cons j fs ih2 =>
        simp only [List.flatMap_cons, List.map_append, List.sum_append, ih2, List.length_cons]
        ring
    rw [List.map_append, List.sum_append, this files]
    ring

/-- **C07**, what repeated calls give: after `k` calls every entry `c` of the first matrix has become
`((n+1)^k - 1)/n · c` for `n` files. -/
theorem C07_kth_call {ι Mt κ : Type} [DecidableEq κ] (found : J → ι → List Mt) (W : Nat) (files : List J)
    (macros : List ι) (strings : ι → Mt → κ × κ) (t f : κ) (k : Nat) (acc : ι → List Mt)
    (h : DepCalls found W files k acc) :
    files.length * depEntry macros strings acc t f + depEntry macros strings (fun m => files.flatMap (fun j => found j m)) t f
      = (files.length + 1) ^ k * depEntry macros strings (fun m => files.flatMap (fun j => found j m)) t f := by
  induction h with
  | zero => simp [depEntry]
  | succ _ hcall ih =>
    rw [depEntry_call hcall, pow_succ]
    have e : ∀ n a c x : ℕ, n * a + c = x * c → n * ((n + 1) * a + c) + c = x * (n + 1) * c := by
      intro n a c x h
      have : n * ((n + 1) * a + c) + c = (n + 1) * (n * a + c) := by ring
      rw [this, h]; ring
    exact e _ _ _ _ ih

/-- **C07 is false** for every handler and corpus with a match: the second call never gives the matrix of the
first. -/
theorem C07_false {ι Mt κ : Type} [DecidableEq κ] (found : J → ι → List Mt) (W : Nat) (files : List J)
    (macros : List ι) (strings : ι → Mt → κ × κ) (t f : κ) (acc1 acc2 : ι → List Mt)
    (h1 : DepCall found W files (fun _ => []) acc1) (h2 : DepCall found W files acc1 acc2)
    (hm : depEntry macros strings acc1 t f ≠ 0) :
    depEntry macros strings acc2 t f ≠ depEntry macros strings acc1 t f := by
  have e1 := depEntry_call h1 macros strings t f
  have e2 := depEntry_call h2 macros strings t f
  have z : depEntry macros strings (fun _ : ι => ([] : List Mt)) t f = 0 := by simp [depEntry]
  rw [z, mul_zero, zero_add] at e1
  rw [e2, ← e1]
  intro h
  have : 0 < depEntry macros strings acc1 t f := Nat.pos_of_ne_zero hm
  nlinarith

/-- Non-vacuity of C06/C07: one worker, one file with one match, two calls; the entry goes from 1 to 3. -/
example : ∃ acc1 acc2 : Unit → List Nat,
    DepCall (fun (j : Nat) _ => [j]) 1 [4] (fun _ => []) acc1 ∧ DepCall (fun (j : Nat) _ => [j]) 1 [4] acc1 acc2 ∧
    depEntry [()] (fun _ (x : Nat) => (x, x)) acc1 4 4 = 1 ∧ depEntry [()] (fun _ (x : Nat) => (x, x)) acc2 4 4 = 3 := by
  refine ⟨fun _ => [4], fun _ => [4, 4, 4], ?_, ?_, by decide, by decide⟩
  all_goals
    refine ⟨[.produce, .take 0, .work 0, .produce, .take 0, .work 0], ⟨[], [], [.done ()], [_]⟩, [_],
      by intro i; simp, rfl, ⟨rfl, ?_⟩, rfl, ?_⟩
    · intro w hw
      simp at hw
      exact Or.inl ⟨(), hw⟩
    · funext x; rfl

/-- **C07 (partial).** The full claim, `acc2` and `acc1` giving the same matrix, is false (`C07_false`).  It holds
when the templates are read anew between the calls (which empties the matches, `deprel.py:95-99`), whatever the two
schedules and worker counts. -/
theorem C07_reread_partial {ι Mt κ : Type} [DecidableEq κ] (found : J → ι → List Mt) (W W' : Nat) (files : List J)
    (macros : List ι) (strings : ι → Mt → κ × κ) (t f : κ) (acc1 acc2 : ι → List Mt)
    (h1 : DepCall found W files (fun _ => []) acc1) (h2 : DepCall found W' files (fun _ => []) acc2) :
    depEntry macros strings acc2 t f = depEntry macros strings acc1 t f := by
  rw [(C06_first_call found W files acc1 h1).2, (C06_first_call found W' files acc2 h2).2]

/-! ## C08: number of workers -/

/-- The claim for one request and machine. -/
def C08_claim (workers cpus : Int) : Prop :=
  1 ≤ workerCount workers cpus ∧ workerCount workers cpus ≤ cpus ∧
    (0 < workers → workers ≤ cpus → workerCount workers cpus = workers)

/-- **C08 is false** on a machine with one CPU, whatever is requested: no worker is started. -/
theorem C08_false_one_cpu (workers : Int) : workerCount workers 1 = 0 ∧ ¬ C08_claim workers 1 := by
  have : workerCount workers 1 = 0 := by unfold workerCount; split <;> omega
  exact ⟨this, fun h => by have := h.1; omega⟩

/-- **C08**: a request for all CPUs is not honoured. -/
theorem C08_false_all_cpus (cpus : Int) : 1 ≤ cpus → workerCount cpus cpus = cpus - 1 := by
  intro h; unfold workerCount; split <;> omega

/-- **C08 (partial).** The full claim `C08_claim` is false; on machines with at least two CPUs it holds except
that a request for exactly all CPUs gives one fewer. -/
theorem C08_workers_partial (workers cpus : Int) (h : 2 ≤ cpus) :
    1 ≤ workerCount workers cpus ∧ workerCount workers cpus < cpus ∧
      (0 < workers → workers < cpus → workerCount workers cpus = workers) ∧
      (¬ (0 < workers ∧ workers < cpus) → workerCount workers cpus = cpus - 1) := by
  unfold workerCount
  refine ⟨?_, ?_, ?_, ?_⟩
  · split <;> omega
  · split <;> omega
  · intro h1 h2; rw [if_pos ⟨h1, h2⟩]
  · intro h1; rw [if_neg h1]

/-- **C08**, consequence on one CPU: with no worker, a frequency-list call on a non-empty corpus never returns. -/
theorem C08_no_worker_blocks (f : J → R) (files : List J) (hf : files ≠ []) (as : List Action) (s : State J Unit R)
    (h : exec (perJob f) as (start (perJob f) 0 files) = some s) : readN files.length s = none := by
  have hw : s.workers = [] := by
    have := workers_length h
    simp only [start, List.replicate_zero, List.length_nil] at this
    exact List.eq_nil_of_length_eq_zero this
  have hr : s.results = [] := by
    refine (exec_invariant (perJob f) (fun t => t.workers = [] ∧ t.results = []) (fun _ => True) ?_ as _ s
      (fun _ _ => trivial) ⟨rfl, rfl⟩ h).2
    intro a t t' _ hI hs
    rcases step_cases hs with ⟨x, rest, _, hp, rfl⟩ | ⟨i, b, j, q, _, h1, h2, rfl⟩ |
      ⟨i, b, q, _, h1, h2, rfl⟩ | ⟨i, b, j, _, h1, rfl⟩ | ⟨i, b, _, h1, rfl⟩ | ⟨i, w, _, h1, _, _, rfl⟩
    · exact hI
    all_goals rw [hI.1] at h1; simp at h1
  unfold readN
  rw [if_neg]
  rw [hr, List.length_nil]
  have : 0 < files.length := List.length_pos_iff.2 hf
  omega

end Verif.Engine
