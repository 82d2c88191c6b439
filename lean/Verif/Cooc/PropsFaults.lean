import Verif.Engine.Faults
import Verif.Engine.Props
import Verif.Cooc.Props

/-!
# C234: files that cannot be processed

A file that is missing, that cannot be decoded or whose lines raise.  `bad` holds for the files that raise (a file is given
by its content, so that the content of such a file only stands for it); `Obeys` is the rule of a run in which a worker dies
if it holds such a file, and for no other reason (`Verif.Engine.Faults`).
-/

set_option linter.unusedSectionVars false

namespace Verif.Cooc
open Verif.Py Verif.Corpus Verif.Window Verif.Engine Verif.Matrix Verif.Vocab

variable {ℓ μ κ : Type} [LinearOrder κ]

/-- **C234, frequency lists and dependency matrices** (the handlers that put one result for each file): if any file raises,
the call never returns; nothing is raised either.  A `DepRelHandler` with a `mode` that is neither `type` nor `token` is
an instance: every file raises (`/repo/nephosem/models/deprel.py:218-224`). -/
theorem C234_partial_blocks {J R : Type} (f : J → R) (bad : J → Prop) (W : Nat) (files : List J) (hbad : ∃ j ∈ files, bad j)
    (as : List Action) (s : State J Unit R) (ho : Obeys bad (perJob f) as (start (perJob f) W files))
    (h : exec (perJob f) as (start (perJob f) W files) = some s) : readN files.length s = none := by
  classical
  have hres := perJob_results h
  simp only [start, List.nil_append] at hres
  obtain ⟨lost, hl⟩ := finished_le h
  have h0 : (held (start (perJob f) W files) : Multiset J) + jobs (start (perJob f) W files).queue +
      jobs (start (perJob f) W files).pending = (files : Multiset J) := by
    simp [start, held, jobs_append]
  rw [h0] at hl
  have hg := finished_good ho
  obtain ⟨j, hj, hb⟩ := hbad
  have hjm : j ∉ finished (perJob f) as (start (perJob f) W files) := fun hm => hg j hm hb
  have hlt : (finished (perJob f) as (start (perJob f) W files) : Multiset J) < (files : Multiset J) := by
    refine lt_of_le_of_ne ?_ ?_
    · rw [← hl, add_assoc, add_assoc]
      exact le_trans (Multiset.le_add_right _ _) (Multiset.le_add_left _ _)
    · intro he
      exact hjm (by rw [← Multiset.mem_coe, he]; exact hj)
  have hc := Multiset.card_lt_card hlt
  simp only [Multiset.coe_card] at hc
  unfold readN
  rw [if_neg]
  have hlen := congrArg List.length hres
  simp only [List.length_map] at hlen
  simp only [start] at hc
  omega

theorem colEmit_length (rowv colv : Vocab κ) (d : ColData κ) : (colEmit rowv colv d).length ≤ 1 := by
  unfold colEmit
  simp only
  split
  · split <;> simp
  · split <;> simp

/-- **C234, co-occurrences**: with files that raise, `build_col_freq` returns all the same, and raises nothing: the counts of
some of the other files, or `None`.  What the workers that died had counted in files without fault is lost.  If there are as
many files that raise as workers, nothing is left. -/
theorem C234_partial_counts (f : Formatter ℓ μ κ) (L R : Nat) (rowv colv : Vocab κ) (hrw : Constructed rowv)
    (hc : Constructed colv) (bad : List ℓ → Prop) [DecidablePred bad] (W : Nat) (files : List (List ℓ)) (as : List Action)
    (s : State (List ℓ) (ColData κ) (ColRes κ))
    (ho : Obeys bad (colProg f L R rowv colv) as (start (colProg f L R rowv colv) W files))
    (h : exec (colProg f L R rowv colv) as (start (colProg f L R rowv colv) W files) = some s) (hj : Joined s) :
    ∃ res, buildColFreq rowv s = .ok res ∧
      (∃ kept, kept.Subperm (files.filter (fun x => ¬ bad x)) ∧ (∀ t c, 0 < totalCount f L R rowv colv kept t c → rowv.freq ≠ [] →
          ∃ m, res = some m) ∧ ∀ m, res = some m → ∀ t c, entry m t c = totalCount f L R rowv colv kept t c) ∧
      (∀ m, res = some m → ∀ t c, entry m t c ≤ totalCount f L R rowv colv (files.filter (fun x => ¬ bad x)) t c) ∧
      (W ≤ files.countP (fun x => bad x) → res = none) := by
  unfold buildColFreq
  by_cases hr : rowv.freq = []
  · rw [if_pos (by unfold Vocab.len; rwa [keys_eq_nil])]
    exact ⟨none, rfl, ⟨[], List.nil_subperm, fun _ _ _ hn => absurd hr hn, by simp⟩, by simp, fun _ => rfl⟩
  rw [if_neg (by unfold Vocab.len; rwa [keys_eq_nil])]
  obtain ⟨parts, hp, he⟩ := fault_parts ho h
  obtain ⟨res, h1, h2⟩ := processResults_parts f L R hrw hr hc parts [] none (by intro t c; simp [totalCount])
  rw [List.nil_append] at h2
  refine ⟨res, by unfold processResults readAll; rw [he]; exact h1, ⟨parts.flatten, hp, ?_, ?_⟩, ?_, ?_⟩
  · intro t c hpos _
    cases res with
    | none => rw [h2 t c] at hpos; exact absurd hpos (lt_irrefl _)
    | some m => exact ⟨m, rfl⟩
  · intro m hm t c
    subst hm
    exact h2.1.entry t c
  · intro m hm t c
    subst hm
    rw [h2.1.entry]
    obtain ⟨l, hl, hsub⟩ := hp
    have : totalCount f L R rowv colv parts.flatten t c ≤ totalCount f L R rowv colv (files.filter (fun x => ¬ bad x)) t c := by
      rw [← totalCount_perm f L R rowv colv hl]
      unfold totalCount
      split
      · exact sum_sublist (hsub.map _)
      · exact le_refl _
    exact_mod_cast this
  · intro hW
    have hlen := fault_results_le (colEmit_length rowv colv) ho h hj
    have hz : s.results = [] := List.length_eq_zero_iff.1 (by omega)
    rw [← he, hz] at h1
    injection h1 with h1
    exact h1.symm

/-- **C234, one worker**: a single file that raises, anywhere in the list, and `None` is returned, as for a corpus without any
of the pairs. -/
theorem C234_partial_one_worker (f : Formatter ℓ μ κ) (L R : Nat) (rowv colv : Vocab κ) (hrw : Constructed rowv)
    (hc : Constructed colv) (bad : List ℓ → Prop) [DecidablePred bad] (files : List (List ℓ)) (hbad : ∃ x ∈ files, bad x)
    (as : List Action) (s : State (List ℓ) (ColData κ) (ColRes κ))
    (ho : Obeys bad (colProg f L R rowv colv) as (start (colProg f L R rowv colv) 1 files))
    (h : exec (colProg f L R rowv colv) as (start (colProg f L R rowv colv) 1 files) = some s) (hj : Joined s) :
    buildColFreq rowv s = .ok none := by
  obtain ⟨res, h1, -, -, h4⟩ := C234_partial_counts f L R rowv colv hrw hc bad 1 files as s ho h hj
  rw [h1, h4 ?_]
  obtain ⟨x, hx, hb⟩ := hbad
  exact List.countP_pos_iff.2 ⟨x, hx, by simpa using hb⟩

/-! ### Concrete runs -/

/-- The file that raises in the samples. -/
def badFile (x : List Nat) : Prop := x = [99]

instance : DecidablePred badFile := fun x => inferInstanceAs (Decidable (x = [99]))

/-- Worker 1 counts the first file, takes the second, which raises, and dies; worker 0 counts the third. -/
def faultRun : List Action :=
  [.produce, .take 1, .work 1, .produce, .take 1, .crash 1, .produce, .take 0, .work 0, .produce, .take 0, .work 0, .produce]

/-- What `Permitted` says of the actions of the samples. -/
theorem obeys_cons {J A R : Type} {bad : J → Prop} {p : Prog J A R} {a : Action} {as : List Action} {s s1 : State J A R}
    (h : step p a s = some s1) (h1 : Permitted bad a s) (h2 : Obeys bad p as s1) : Obeys bad p (a :: as) s :=
  ⟨h1, fun s' hs => by rw [h] at hs; injection hs with hs; exact hs ▸ h2⟩

theorem faultRun_obeys : Obeys badFile progS faultRun (start progS 2 [[1, 2, 3], [99], [2, 1]]) := by
  refine obeys_cons rfl trivial (obeys_cons rfl trivial (obeys_cons rfl ?_ (obeys_cons rfl trivial (obeys_cons rfl trivial
    (obeys_cons rfl ?_ (obeys_cons rfl trivial (obeys_cons rfl trivial (obeys_cons rfl ?_ (obeys_cons rfl trivial
    (obeys_cons rfl trivial (obeys_cons rfl ?_ (obeys_cons rfl trivial trivial))))))))))))
  · intro b j hw
    injection hw with hw
    injection hw with _ hw
    subst hw
    decide
  · exact ⟨_, [99], rfl, rfl⟩
  · intro b j hw
    injection hw with hw
    injection hw with _ hw
    subst hw
    decide
  · intro b j hw
    injection hw with hw
    cases hw

/-- **C234 is false for co-occurrences**: a file raises, and a matrix is returned that lacks the counts of another file, which
is without fault. -/
theorem C234_false_counts : Obeys badFile progS faultRun (start progS 2 [[1, 2, 3], [99], [2, 1]]) ∧
    ∃ s, exec progS faultRun (start progS 2 [[1, 2, 3], [99], [2, 1]]) = some s ∧ Joined s ∧
      ∃ m, buildColFreq rowv12 s = .ok (some m) ∧ entry m 2 1 = 1 ∧ entry m 2 3 = 0 ∧
        totalCount fmt 1 1 rowv12 Vocab.empty [[1, 2, 3], [2, 1]] 2 1 = 2 ∧
        totalCount fmt 1 1 rowv12 Vocab.empty [[1, 2, 3], [2, 1]] 2 3 = 1 := by
  refine ⟨faultRun_obeys, ⟨[], [none], [.done held21, .crashed], [.sub sub21]⟩, rfl, ⟨rfl, ?_⟩, sub21, rfl, rfl, rfl, by decide, by decide⟩
  intro w hw
  simp only [List.mem_cons, List.not_mem_nil, or_false] at hw
  rcases hw with rfl | rfl
  · exact Or.inl ⟨_, rfl⟩
  · exact Or.inr rfl

/-- A worker that gets files 7 and 8, of which 8 raises, one that gets 9, and two that get none. -/
def faultTokens : List Action :=
  [.produce, .take 0, .work 0, .produce, .take 0, .crash 0, .produce, .take 1, .work 1, .produce, .take 1, .work 1,
    .produce, .take 2, .work 2, .produce, .take 3, .work 3, .produce]

/-- **C234 is false for tokens**: a file raises, and `retrieve_tokens` returns the tokens of the file 9 only; those of 7, a
file without fault, are lost. -/
theorem C234_false_tokens :
    let p := tokenProg (fun _ : Unit => ([] : List Nat)) (fun t (j : Nat) k => t k ++ [j])
    Obeys (fun j => j = 8) p faultTokens (start p 4 [7, 8, 9]) ∧
    ∃ s rs, exec p faultTokens (start p 4 [7, 8, 9]) = some s ∧ Joined s ∧ readN 3 s = some rs ∧ mergeToks rs () = [9] := by
  intro p
  refine ⟨?_, _, _, rfl, ⟨rfl, ?_⟩, rfl, rfl⟩
  · refine obeys_cons rfl trivial (obeys_cons rfl trivial (obeys_cons rfl ?_ (obeys_cons rfl trivial (obeys_cons rfl trivial
      (obeys_cons rfl ?_ (obeys_cons rfl trivial (obeys_cons rfl trivial (obeys_cons rfl ?_ (obeys_cons rfl trivial
      (obeys_cons rfl trivial (obeys_cons rfl ?_ (obeys_cons rfl trivial (obeys_cons rfl trivial (obeys_cons rfl ?_
      (obeys_cons rfl trivial (obeys_cons rfl trivial (obeys_cons rfl ?_ (obeys_cons rfl trivial trivial))))))))))))))))))
    · intro b j hw
      injection hw with hw
      injection hw with _ hw
      omega
    · exact ⟨_, 8, rfl, rfl⟩
    · intro b j hw
      injection hw with hw
      injection hw with _ hw
      omega
    · intro b j hw
      injection hw with hw
      cases hw
    · intro b j hw
      injection hw with hw
      cases hw
    · intro b j hw
      injection hw with hw
      cases hw
  · intro w hw
    simp [p, tokenProg, start] at hw
    rcases hw with rfl | rfl | rfl
    · exact Or.inr rfl
    · exact Or.inl ⟨_, rfl⟩
    · exact Or.inl ⟨_, rfl⟩

/-- One worker and a file that raises after one without fault. -/
def faultOne : List Action := [.produce, .take 0, .work 0, .produce, .take 0, .crash 0, .produce]

/-- Non-vacuity for one worker: the hypotheses of `C234_partial_one_worker` are met. -/
example : Constructed rowv12 ∧ Obeys badFile progS faultOne (start progS 1 [[1, 2, 3], [99]]) ∧
    ∃ s, exec progS faultOne (start progS 1 [[1, 2, 3], [99]]) = some s ∧ Joined s ∧
      buildColFreq rowv12 s = .ok none ∧ totalCount fmt 1 1 rowv12 Vocab.empty [[1, 2, 3]] 2 3 = 1 := by
  refine ⟨⟨by unfold Dict.WF; decide, rfl⟩, ?_, ⟨[], [none], [.crashed], []⟩, rfl, ⟨rfl, ?_⟩, rfl, by decide⟩
  · refine obeys_cons rfl trivial (obeys_cons rfl trivial (obeys_cons rfl ?_ (obeys_cons rfl trivial (obeys_cons rfl trivial
      (obeys_cons rfl ?_ (obeys_cons rfl trivial trivial))))))
    · intro b j hw
      injection hw with hw
      injection hw with _ hw
      subst hw
      decide
    · exact ⟨_, [99], rfl, rfl⟩
  · intro w hw
    simp only [List.mem_cons, List.not_mem_nil, or_false] at hw
    exact Or.inr hw

/-- Non-vacuity for the frequency lists: with the file 8 the run of two workers ends, and the parent waits for ever. -/
example : Obeys (fun j => j = 8) (perJob (fun n : Nat => n)) [.produce, .take 0, .produce, .take 1, .work 1, .crash 0, .produce, .take 1,
      .work 1, .produce] (start (perJob (fun n : Nat => n)) 2 [8, 7]) ∧
    ∃ s, exec (perJob (fun n : Nat => n)) [.produce, .take 0, .produce, .take 1, .work 1, .crash 0, .produce, .take 1,
      .work 1, .produce] (start (perJob (fun n : Nat => n)) 2 [8, 7]) = some s ∧ Joined s ∧ s.results = [7] ∧ readN 2 s = none := by
  refine ⟨?_, _, rfl, ⟨rfl, ?_⟩, rfl, rfl⟩
  · refine obeys_cons rfl trivial (obeys_cons rfl trivial (obeys_cons rfl trivial (obeys_cons rfl trivial (obeys_cons rfl ?_
      (obeys_cons rfl ?_ (obeys_cons rfl trivial (obeys_cons rfl trivial (obeys_cons rfl ?_ (obeys_cons rfl trivial trivial)))))))))
    · intro b j hw
      injection hw with hw
      injection hw with _ hw
      omega
    · exact ⟨_, 8, rfl, rfl⟩
    · intro b j hw
      injection hw with hw
      cases hw
  · intro w hw
    simp [perJob, start] at hw
    rcases hw with rfl | rfl
    · exact Or.inr rfl
    · exact Or.inl ⟨_, rfl⟩

end Verif.Cooc
