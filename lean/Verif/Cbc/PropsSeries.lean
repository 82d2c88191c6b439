import Verif.Cbc.PropsKeep

/-! # Property theorem C251: what a series of clusterings leaves in the home directory -/

set_option linter.unusedSectionVars false

namespace Verif.Cbc

open Verif.Py

variable {K E V : Type} [Field K] [LinearOrder K] [LinearOrder E]

/-- One clustering of a series: the minute in which it keeps its results, the clustering and the number of elements. -/
structure Job (K E V : Type) [Field K] [LinearOrder K] [LinearOrder E] where
  stamp : String
  c : Clustering K E V
  numEles : Int

/-- The home directory after a series of clusterings, one after the other; each is `CBC.cluster`, cbc.py 148-216. -/
def afterAll (mc : Machine E) (jobs : List (Job K E V)) (h : Home E) : Home E :=
  jobs.foldl (fun h j => (clusterKeeping mc j.stamp j.c j.numEles h).2) h

/-- The home directory has the results of a clustering: both files, as the clustering returned them. -/
def HasResults (h : Home E) (j : Job K E V) : Prop :=
  h.files [".cbc", "res." ++ j.stamp, "Cs"] = some (.whole (.comms ((cluster j.c j.numEles).map Prod.fst))) ∧
    h.files [".cbc", "res." ++ j.stamp, "Rs"] = some (.whole (.residues ((cluster j.c j.numEles).map Prod.snd)))

/-- A clustering that keeps its results when nothing else happens (see `C245_kept_partial`). -/
structure Keeps (mc : Machine E) (j : Job K E V) : Prop where
  home : mc.canMake [".cbc"] = true
  dir : mc.canMake [".cbc", "res." ++ j.stamp] = true
  over : given j.c j.numEles = [] ∨ UsedUp j.c.numIter (given j.c j.numEles) (cluster j.c j.numEles)
  openC : mc.canOpen [".cbc", "res." ++ j.stamp, "Cs"] = true
  openR : mc.canOpen [".cbc", "res." ++ j.stamp, "Rs"] = true
  encC : ∀ r ∈ cluster j.c j.numEles, ∀ comm ∈ r.1, ∀ e ∈ comm, ∀ x ∈ mc.text e, mc.locale x = true
  encR : ∀ r ∈ cluster j.c j.numEles, ∀ e ∈ r.2, ∀ x ∈ mc.text e, x.toNat < 256

theorem res_inj {a b : String} (h : "res." ++ a = "res." ++ b) : a = b := by
  have := congrArg String.toList h
  simpa [String.ext_iff] using this

theorem path_ne {a b f g : String} (h : a ≠ b) : [".cbc", "res." ++ a, f] ≠ [".cbc", "res." ++ b, g] := by
  intro hh
  have h1 := (List.cons.inj (List.cons.inj hh).2).1
  exact h (res_inj h1)

theorem afterAll_other {mc : Machine E} {stamp f : String} (jobs : List (Job K E V)) (h : Home E) (hj : ∀ j ∈ jobs, j.stamp ≠ stamp) :
    (afterAll mc jobs h).files [".cbc", "res." ++ stamp, f] = h.files [".cbc", "res." ++ stamp, f] := by
  induction jobs generalizing h with
  | nil => rfl
  | cons j jobs ih =>
    have hs : stamp ≠ j.stamp := (hj j (by simp)).symm
    show (afterAll mc jobs _).files _ = _
    rw [ih _ fun k hk => hj k (by simp [hk]), C245_others (path_ne hs) (path_ne hs)]

/-- **C251**, the part that holds: results that are kept stay as they are through any number of further clusterings, if none of these
ends within the same minute.  Missing: clusterings in the same minute (`C251_replaced`, `C251_false`, `C251_mixed`). -/
theorem C251_partial {mc : Machine E} {before after : List (Job K E V)} {j : Job K E V} (h : Home E) (hk : Keeps mc j)
    (ha : ∀ k ∈ after, k.stamp ≠ j.stamp) : HasResults (afterAll mc (before ++ j :: after) h) j := by
  have e : afterAll mc (before ++ j :: after) h = afterAll mc after (clusterKeeping mc j.stamp j.c j.numEles (afterAll mc before h)).2 := by
    unfold afterAll
    rw [List.foldl_append, List.foldl_cons]
  have k := C245_kept_partial (h := afterAll mc before h) (Or.inr hk.home) (Or.inr hk.dir) hk.over hk.openC hk.openR hk.encC hk.encR
  unfold HasResults
  rw [e, afterAll_other _ _ ha, afterAll_other _ _ ha]
  exact k

/-- **C251**: in a series of clusterings in different minutes, the results of all that keep theirs can be found afterwards. -/
theorem C251_all {mc : Machine E} {jobs : List (Job K E V)} (h : Home E) (hd : (jobs.map Job.stamp).Nodup) {j : Job K E V} (hj : j ∈ jobs)
    (hk : Keeps mc j) : HasResults (afterAll mc jobs h) j := by
  obtain ⟨b, a, rfl⟩ := List.append_of_mem hj
  refine C251_partial h hk fun k hka hs => ?_
  rw [List.map_append, List.map_cons, List.nodup_append] at hd
  exact (List.nodup_cons.1 hd.2.1).1 (hs ▸ List.mem_map_of_mem hka)

/-- **C251 is false** in general: of two clusterings in the same minute that both keep their results, only those of the later one are
there afterwards, unless the results are the same. -/
theorem C251_replaced {mc : Machine E} {j k : Job K E V} (h : Home E) (hk : Keeps mc k) (hs : j.stamp = k.stamp)
    (hne : cluster j.c j.numEles ≠ cluster k.c k.numEles) : HasResults (afterAll mc [j, k] h) k ∧ ¬ HasResults (afterAll mc [j, k] h) j := by
  have h1 : HasResults (afterAll mc [j, k] h) k := C251_partial (before := [j]) (after := []) h hk (by simp)
  refine ⟨h1, fun h2 => hne ?_⟩
  obtain ⟨a, b⟩ := h1
  obtain ⟨c, d⟩ := h2
  rw [hs] at c d
  rw [a] at c
  rw [b] at d
  have e1 : (cluster k.c k.numEles).map Prod.fst = (cluster j.c j.numEles).map Prod.fst := by
    have := Option.some.inj c; injection this with this; injection this
  have e2 : (cluster k.c k.numEles).map Prod.snd = (cluster j.c j.numEles).map Prod.snd := by
    have := Option.some.inj d; injection this with this; injection this
  have z : ∀ l : List (List (List E) × List E), l = (l.map Prod.fst).zip (l.map Prod.snd) := by
    intro l; induction l with
    | nil => rfl
    | cons x l ih => rw [List.map_cons, List.map_cons, List.zip_cons_cons, ← ih]
  rw [z (cluster j.c j.numEles), z (cluster k.c k.numEles), e1, e2]

/-- **C251 is false** in general, mixed results: if the committees of the second clustering of a minute cannot be written in the encoding
of the locale, the directory has a broken file of committees and the residues of the first clustering. -/
theorem C251_mixed {mc : Machine E} {j k : Job K E V} (h : Home E) (hj : Keeps mc j) (hs : j.stamp = k.stamp)
    (hover : given k.c k.numEles = [] ∨ UsedUp k.c.numIter (given k.c k.numEles) (cluster k.c k.numEles))
    (hbad : ∃ r ∈ cluster k.c k.numEles, ∃ comm ∈ r.1, ∃ e ∈ comm, ∃ x ∈ mc.text e, mc.locale x = false) :
    (afterAll mc [j, k] h).files [".cbc", "res." ++ j.stamp, "Cs"] = some .cut ∧
      (afterAll mc [j, k] h).files [".cbc", "res." ++ j.stamp, "Rs"] = some (.whole (.residues ((cluster j.c j.numEles).map Prod.snd))) := by
  have hfirst : HasResults (afterAll mc [j] h) j := C251_partial (before := []) (after := []) h hj (by simp)
  have e : afterAll mc [j, k] h = (clusterKeeping mc k.stamp k.c k.numEles (afterAll mc [j] h)).2 := rfl
  constructor
  · have hrun := (run_used_up (majorSteps k.c) k.c.numIter (given k.c k.numEles)).2 hover
    obtain ⟨h0, e0, _⟩ := makeDir_usable (mc := mc) (h := afterAll mc [j] h) (p := [".cbc"]) (Or.inr hj.home)
    obtain ⟨h1, e1, _⟩ := makeDir_usable (mc := mc) (h := h0) (p := [".cbc", "res." ++ k.stamp]) (Or.inr (hs ▸ hj.dir))
    have ho : mc.canOpen ([".cbc", "res." ++ k.stamp] ++ ["Cs"]) = true := hs ▸ hj.openC
    have hf : encodes mc mc.locale ((cluster k.c k.numEles).map Prod.fst).flatten.flatten = false := by
      obtain ⟨r, hr, comm, hc, x, hx, ch, hch, hl⟩ := hbad
      unfold encodes
      rw [← Bool.not_eq_true, List.all_eq_true]
      intro hall
      have h1 := hall x (List.mem_flatten.2 ⟨comm, List.mem_flatten.2 ⟨r.1, List.mem_map_of_mem hr, hc⟩, hx⟩)
      rw [List.all_eq_true] at h1
      rw [h1 ch hch] at hl
      cases hl
    rw [e, keeping_eq e0, hrun, if_pos rfl, hs]
    unfold keepResults
    rw [e1]
    unfold saveComms writeDoc
    simp only [if_pos ho, hf]
    simp
  · rw [e, hs, C245_first (.inr hbad), ← hs]
    exact hfirst.2

theorem oneRound_keeps (es : List Nat) (hes : given (oneRound es) (-1) = [1, 2] ++ es.drop 2)
    (hc : cluster (oneRound es) (-1) = [([[1, 2]], es.drop 2)]) (hl : 2 < (es.drop 2).length) (h3 : ∀ e ∈ es, e < 100 ∧ e ≠ 3) :
    Keeps exMachine ⟨"1", oneRound es, -1⟩ := by
  refine ⟨rfl, rfl, .inr ⟨by rw [hc]; rfl, ?_⟩, rfl, rfl, fun _ _ _ _ _ _ _ _ => rfl, ?_⟩
  · intro k r hk _
    simp only [hc] at hk ⊢
    cases k with
    | zero =>
      cases hk
      refine ⟨hl, ?_⟩
      simp only [startOf, hes, List.length_append]
      simp
    | succ k => cases hk
  · intro r hr e he x hx
    simp only [hc, List.mem_singleton] at hr
    subst hr
    have h := h3 e (List.mem_of_mem_drop he)
    simp only [exMachine, if_neg h.2, List.mem_singleton] at hx
    subst hx
    have : (96 + e).isValidChar := Or.inl (by omega)
    rw [Char.ofNat, dif_pos this]
    show (Char.ofNatAux (96 + e) this).toNat < 256
    simp [Char.toNat, Char.ofNatAux]
    omega

/-- **C251 is false**: two clusterings in the same minute. -/
theorem C251_false : ∃ (j k : Job ℚ Nat Nat), Keeps exMachine j ∧ Keeps exMachine k ∧ ¬ HasResults (afterAll exMachine [j, k] emptyHome) j := by
  have a := oneRound_keeps [1, 2, 4, 5, 6] (by decide +kernel) (by decide +kernel) (by decide) (by decide)
  have b := oneRound_keeps [1, 2, 7, 8, 9] (by decide +kernel) (by decide +kernel) (by decide) (by decide)
  exact ⟨_, _, a, b, (C251_replaced (j := ⟨"1", oneRound [1, 2, 4, 5, 6], -1⟩) emptyHome b rfl (by decide +kernel)).2⟩

/-- The hypotheses of `C251_all`: two clusterings in different minutes. -/
example : HasResults (afterAll exMachine [⟨"1", oneRound [1, 2, 4, 5, 6], -1⟩, ⟨"2", oneRound [1, 2, 7, 8, 9], -1⟩] emptyHome)
    ⟨"1", oneRound [1, 2, 4, 5, 6], -1⟩ :=
  C251_all emptyHome (by decide) (by simp) (oneRound_keeps [1, 2, 4, 5, 6] (by decide +kernel) (by decide +kernel) (by decide) (by decide))

/-- As `exMachine`, with a locale without the letter of element 8. -/
def narrow : Machine Nat := { exMachine with locale := fun ch => decide (ch ≠ 'h') }

/-- The second clustering of a minute, with a word in its committee that cannot be written. -/
def second : Job ℚ Nat Nat := ⟨"1", { oneRound [1, 8, 4, 5, 7] with step1 := fun _ _ => .ok [(1, [1, 8])] }, -1⟩

example : cluster second.c second.numEles = [([[1, 8]], [8, 4, 5, 7])] ∧
    (afterAll narrow [⟨"1", oneRound [1, 2, 4, 5, 6], -1⟩, second] emptyHome).files [".cbc", "res.1", "Cs"] = some .cut ∧
    (afterAll narrow [⟨"1", oneRound [1, 2, 4, 5, 6], -1⟩, second] emptyHome).files [".cbc", "res.1", "Rs"] =
      some (.whole (.residues [[4, 5, 6]])) := by decide +kernel

end Verif.Cbc
