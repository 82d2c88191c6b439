import Verif.Setup.Config
import Mathlib.Data.List.Induction

/-!
# C49, C80: settings files
-/

namespace Verif.Setup

open Verif.Py

/-! ## Specification -/

/-- All options of a file in order: section, option, outcome of reading it. -/
def entries (file : File) : List (String × String × Except Err String) :=
  file.flatMap (fun s => s.2.map (fun o => (s.1, o.1, o.2)))

/-- The setting an option stands for: an integer in section `Span`, text elsewhere; an unreadable value
(`ValueError`) counts as `None` outside `Span`. -/
def Means (toInt : String → Option Int) (sect : String) (g : Except Err String) (v : Val) : Prop :=
  if sect = "Span" then ∃ s z, g = .ok s ∧ toInt s = some z ∧ v = .int z
  else (∃ s, g = .ok s ∧ v = .str s) ∨ (g = .error .value ∧ v = .none)

/-- The last entry for option `k` in the file means `v`. -/
def FileSets (toInt : String → Option Int) (file : File) (k : String) (v : Val) : Prop :=
  ∃ pre sect g post, entries file = pre ++ (sect, k, g) :: post ∧ (∀ e ∈ post, e.2.1 ≠ k) ∧ Means toInt sect g v

/-- The file has no entry for option `k`. -/
def FileSilent (file : File) (k : String) : Prop := ∀ e ∈ entries file, e.2.1 ≠ k

/-! ## Reading a file -/

/-- The value stored for an entry. -/
def entryValue (toInt : String → Option Int) (sect : String) (g : Except Err String) : Except Err Val := do
  let v ← readParams g
  if sect = "Span" then intOf toInt v else return v

theorem bind_ok {α β : Type} {x : Except Err α} {f : α → Except Err β} {b : β} (h : (x >>= f) = .ok b) :
    ∃ a, x = .ok a ∧ f a = .ok b := by
  cases x with
  | error e => exact (nomatch h)
  | ok a => exact ⟨a, rfl, h⟩

theorem set_set {κ ν : Type} [DecidableEq κ] (d : Dict κ ν) (k : κ) (v w : ν) :
    Dict.set (Dict.set d k v) k w = Dict.set d k w := by
  induction d with
  | nil => simp [Dict.set]
  | cons p d ih =>
    obtain ⟨a, b⟩ := p
    by_cases h : a = k
    · simp [Dict.set, h]
    · simp [Dict.set, h, ih]

theorem readOption_eq (toInt : String → Option Int) (sect : String) (sett : Settings)
    (o : String × Except Err String) :
    readOption toInt sect sett o = (entryValue toInt sect o.2).map (fun v => Dict.set sett o.1 v) := by
  unfold readOption entryValue
  cases readParams o.2 with
  | error e => rfl
  | ok v =>
    simp only [bind, Except.bind, pure, Except.pure]
    split
    · cases intOf toInt v with
      | error e => rfl
      | ok w => simp [Except.map, set_set]
    · rfl

/-- One entry. -/
def readEntry (toInt : String → Option Int) (sett : Settings) (e : String × String × Except Err String) :
    Except Err Settings := (entryValue toInt e.1 e.2.2).map (fun v => Dict.set sett e.2.1 v)

theorem loadConfig_eq (toInt : String → Option Int) (file : File) :
    loadConfig toInt (some file) = (entries file).foldlM (readEntry toInt) [] := by
  unfold loadConfig entries
  simp only [Option.getD_some]
  generalize ([] : Settings) = sett
  induction file generalizing sett with
  | nil => rfl
  | cons s file ih =>
    rw [List.foldlM_cons, List.flatMap_cons, List.foldlM_append]
    have h1 : readSection toInt sett s
        = (s.2.map (fun o => (s.1, o.1, o.2))).foldlM (readEntry toInt) sett := by
      unfold readSection
      rw [List.foldlM_map]
      congr 1
      funext d o
      rw [readOption_eq]
      rfl
    rw [h1]
    congr 1
    funext d
    exact ih d

theorem entryValue_iff (toInt : String → Option Int) (sect : String) (g : Except Err String) (v : Val) :
    entryValue toInt sect g = .ok v ↔ Means toInt sect g v := by
  unfold entryValue Means readParams intOf
  by_cases hs : sect = "Span"
  · simp only [hs, if_true]
    rcases g with e | s
    · cases e <;> simp [bind, Except.bind]
    · simp only [bind, Except.bind, Except.ok.injEq]
      cases ht : toInt s with
      | none => simp [ht]
      | some z =>
        simp only [Except.ok.injEq]
        constructor
        · rintro rfl
          exact ⟨s, z, rfl, ht, rfl⟩
        · rintro ⟨s', z', rfl, h, rfl⟩
          rw [ht] at h
          rw [Option.some.inj h]
  · simp only [hs, if_false]
    rcases g with e | s
    · cases e <;> simp [bind, Except.bind, pure, Except.pure, eq_comm]
    · simp [bind, Except.bind, pure, Except.pure, eq_comm]

theorem foldlM_entries {toInt : String → Option Int} (es : List (String × String × Except Err String)) :
    ∀ {d : Settings}, es.foldlM (readEntry toInt) [] = .ok d → Dict.WF d ∧
      ∀ k, (∀ v, (Dict.get? d k = some v ↔ ∃ pre sect g post, es = pre ++ (sect, k, g) :: post ∧
          (∀ e ∈ post, e.2.1 ≠ k) ∧ Means toInt sect g v)) ∧
        (Dict.get? d k = none ↔ ∀ e ∈ es, e.2.1 ≠ k) := by
  induction es using List.reverseRecOn with
  | nil =>
    intro d h
    obtain rfl := Except.ok.inj h
    refine ⟨Dict.WF_nil, fun k => ⟨fun v => ?_, by simp⟩⟩
    simp
  | append_singleton es e ih =>
    intro d h
    rw [List.foldlM_append] at h
    obtain ⟨d', h1, h2⟩ := bind_ok h
    obtain ⟨hwf, hget⟩ := ih h1
    rw [List.foldlM_cons] at h2
    obtain ⟨d2, h2, h3⟩ := bind_ok h2
    obtain rfl := Except.ok.inj h3
    unfold readEntry at h2
    cases hv : entryValue toInt e.1 e.2.2 with
    | error er => rw [hv] at h2; exact (nomatch h2)
    | ok w =>
      rw [hv] at h2
      obtain rfl := Except.ok.inj h2
      refine ⟨Dict.WF_set hwf _ _, fun k => ?_⟩
      rw [Dict.get?_set]
      obtain ⟨sect, opt, g⟩ := e
      simp only at hv
      have hmean := (entryValue_iff toInt sect g w).1 hv
      by_cases hk : opt = k
      · subst hk
        simp only [if_true, Option.some.injEq, reduceCtorEq, false_iff]
        refine ⟨fun v => ?_, ?_⟩
        · constructor
          · rintro rfl
            exact ⟨es, sect, g, [], rfl, by simp, hmean⟩
          · rintro ⟨pre, sect', g', post, heq, hpost, hm⟩
            rcases List.eq_nil_or_concat post with rfl | ⟨post', x, rfl⟩
            · have := (List.append_inj' heq rfl).2
              simp only [List.cons.injEq, Prod.mk.injEq, true_and, and_true] at this
              obtain ⟨rfl, rfl⟩ := this
              have hm' := (entryValue_iff toInt sect g v).2 hm
              rw [hv] at hm'
              exact Except.ok.inj hm'
            · exfalso
              rw [List.concat_eq_append, ← List.cons_append, ← List.append_assoc] at heq
              have := (List.append_inj' heq rfl).2
              simp only [List.cons.injEq, and_true] at this
              exact hpost x (by simp) (by rw [← this])
        · intro h
          exact h (sect, opt, g) (by simp) rfl
      · simp only [hk, if_false]
        obtain ⟨i1, i2⟩ := hget k
        refine ⟨fun v => ?_, ?_⟩
        · rw [i1 v]
          constructor
          · rintro ⟨pre, sect', g', post, rfl, hpost, hm⟩
            refine ⟨pre, sect', g', post ++ [(sect, opt, g)], by simp, ?_, hm⟩
            intro x hx
            rcases List.mem_append.1 hx with hx | hx
            · exact hpost x hx
            · rw [List.mem_singleton.1 hx]; exact hk
          · rintro ⟨pre, sect', g', post, heq, hpost, hm⟩
            rcases List.eq_nil_or_concat post with rfl | ⟨post', x, rfl⟩
            · exfalso
              have := (List.append_inj' heq rfl).2
              simp only [List.cons.injEq, Prod.mk.injEq, and_true] at this
              exact hk this.2.1
            · rw [List.concat_eq_append, ← List.cons_append, ← List.append_assoc] at heq
              have := (List.append_inj' heq rfl).1
              exact ⟨pre, sect', g', post', this, fun y hy => hpost y (by simp [hy]), hm⟩
        · rw [i2]
          constructor
          · intro h x hx
            rcases List.mem_append.1 hx with hx | hx
            · exact h x hx
            · rw [List.mem_singleton.1 hx]; exact hk
          · intro h x hx
            exact h x (by simp [hx])

/-- What reading a file gives: for every option the meaning of its last entry, and nothing else. -/
theorem C49_load (toInt : String → Option Int) (file : File) (d : Settings)
    (h : loadConfig toInt (some file) = .ok d) :
    Dict.WF d ∧ ∀ k, (∀ v, Dict.get? d k = some v ↔ FileSets toInt file k v) ∧
      (Dict.get? d k = none ↔ FileSilent file k) := by
  rw [loadConfig_eq] at h
  exact foldlM_entries _ h

/-- Reading fails exactly if some option has no meaning. -/
theorem C49_refused (toInt : String → Option Int) (file : File) :
    (∃ d, loadConfig toInt (some file) = .ok d) ↔ ∀ e ∈ entries file, ∃ v, Means toInt e.1 e.2.2 v := by
  rw [loadConfig_eq]
  generalize ([] : Settings) = sett
  induction entries file generalizing sett with
  | nil => exact ⟨fun _ e he => by simp at he, fun _ => ⟨sett, rfl⟩⟩
  | cons e es ih =>
    rw [List.foldlM_cons]
    unfold readEntry
    cases hv : entryValue toInt e.1 e.2.2 with
    | error er =>
      constructor
      · rintro ⟨d, h⟩
        exact (nomatch h)
      · intro h
        obtain ⟨v, hm⟩ := h e (by simp)
        rw [← entryValue_iff, hv] at hm
        exact (nomatch hm)
    | ok w =>
      have ih' := ih (Dict.set sett e.2.1 w)
      constructor
      · intro h x hx
        rcases List.mem_cons.1 hx with rfl | hx
        · exact ⟨w, (entryValue_iff _ _ _ _).1 hv⟩
        · exact ih'.1 h x hx
      · intro h
        exact ih'.2 (fun x hx => h x (List.mem_cons_of_mem _ hx))

/-! ## C49: histories -/

/-- The loader's dictionary is in the heap and was never handed out; nor is any address outside the heap. -/
def Safe (D : Settings) (w : World) : Prop :=
  w.heap[w.loader]? = some D ∧ w.loader ∉ w.given ∧ ∀ a ∈ w.given, a < w.heap.length

theorem safe_give {D : Settings} {w : World} (h : Safe D w) (d : Settings) : Safe D (w.give d) := by
  obtain ⟨h1, h2, h3⟩ := h
  have hlt := (List.getElem?_eq_some_iff.1 h1).1
  refine ⟨?_, ?_, ?_⟩
  · simp only [World.give]
    rw [List.getElem?_append_left hlt]
    exact h1
  · simp only [World.give, List.mem_append, List.mem_singleton, not_or]
    exact ⟨h2, by omega⟩
  · intro a ha
    simp only [World.give, List.mem_append, List.mem_singleton, List.length_append, List.length_singleton] at ha ⊢
    rcases ha with ha | rfl
    · have := h3 a ha; omega
    · omega

theorem safe_step {toInt : String → Option Int} {D : Settings} {w w' : World} {o : Op} (h : Safe D w)
    (hs : step toInt w o = .ok w') : Safe D w' := by
  cases o with
  | settings =>
    obtain rfl := Except.ok.inj hs
    exact safe_give h _
  | update file =>
    obtain ⟨sett, _, h2⟩ := bind_ok hs
    obtain rfl := Except.ok.inj h2
    exact safe_give h _
  | assign addr k v =>
    simp only [step] at hs
    split at hs
    · next ha =>
      obtain rfl := Except.ok.inj hs
      obtain ⟨h1, h2, h3⟩ := h
      refine ⟨?_, h2, ?_⟩
      · have : addr ≠ w.loader := by rintro rfl; exact h2 ha
        simp [List.getElem?_modify, this, h1]
      · intro a ha'
        simpa using h3 a ha'
    · exact (nomatch hs)
  | clear addr =>
    simp only [step] at hs
    split at hs
    · next ha =>
      obtain rfl := Except.ok.inj hs
      obtain ⟨h1, h2, h3⟩ := h
      refine ⟨?_, h2, ?_⟩
      · have : addr ≠ w.loader := by rintro rfl; exact h2 ha
        simp [List.getElem?_set, this, h1]
      · intro a ha'
        simpa using h3 a ha'
    · exact (nomatch hs)

theorem safe_run {toInt : String → Option Int} {D : Settings} (ops : List Op) :
    ∀ {w : World}, Safe D w → Safe D (run toInt w ops) := by
  induction ops with
  | nil => intro w h; exact h
  | cons o ops ih =>
    intro w h
    unfold run
    rw [List.foldl_cons]
    refine ih ?_
    cases hs : step toInt w o with
    | ok w' => exact safe_step h hs
    | error e => exact h

/-- C49: after any history of calls and of changes the caller makes to dictionaries it got, `conf.settings`
still gives the defaults, and `update_config` gives for every option the user file's value if it sets one and
the default otherwise. -/
theorem C49_update (toInt : String → Option Int) (defaults : Option File) (w₀ : World)
    (h0 : newLoader toInt defaults = .ok w₀) (ops : List Op) :
    ∃ D, loadConfig toInt defaults = .ok D ∧
      (∃ w', step toInt (run toInt w₀ ops) .settings = .ok w' ∧ w'.heap.getLast? = some D) ∧
      ∀ file, ∀ w', step toInt (run toInt w₀ ops) (.update (some file)) = .ok w' →
        ∃ d, w'.heap.getLast? = some d ∧ ∀ k,
          (∀ v, FileSets toInt file k v → Dict.get? d k = some v) ∧
          (FileSilent file k → Dict.get? d k = Dict.get? D k) := by
  obtain ⟨D, hD, h0⟩ := bind_ok h0
  obtain rfl := Except.ok.inj h0
  have hsafe : Safe D (run toInt ⟨[D], 0, []⟩ ops) := safe_run ops ⟨rfl, by simp, by simp⟩
  have hcopy : (run toInt ⟨[D], 0, []⟩ ops).copy = D := by
    unfold World.copy
    rw [hsafe.1]
    rfl
  refine ⟨D, hD, ⟨_, rfl, ?_⟩, ?_⟩
  · simp [World.give, hcopy]
  · intro file w' hs
    obtain ⟨sett, h1, h2⟩ := bind_ok hs
    obtain rfl := Except.ok.inj h2
    obtain ⟨hwf, hget⟩ := C49_load toInt file sett h1
    refine ⟨Dict.update D sett, by simp [World.give, hcopy], fun k => ⟨fun v hv => ?_, fun hsil => ?_⟩⟩
    · rw [Dict.get?_update hwf, ((hget k).1 v).2 hv]
      rfl
    · rw [Dict.get?_update hwf, (hget k).2.2 hsil]
      simp

/-- C49: what was handed out before is never changed by the loader. -/
theorem C49_given (toInt : String → Option Int) (w w' : World) (o : Op)
    (ho : o = .settings ∨ ∃ f, o = .update f) (hs : step toInt w o = .ok w') :
    ∀ (a : Nat) d, w.heap[a]? = some d → w'.heap[a]? = some d := by
  intro a d ha
  have hlt := (List.getElem?_eq_some_iff.1 ha).1
  rcases ho with rfl | ⟨f, rfl⟩
  · obtain rfl := Except.ok.inj hs
    simp only [World.give]
    rw [List.getElem?_append_left hlt, ha]
  · obtain ⟨sett, _, h2⟩ := bind_ok hs
    obtain rfl := Except.ok.inj h2
    simp only [World.give]
    rw [List.getElem?_append_left hlt, ha]

/-- The caller clears the settings it got; the loader still gives the defaults, overridden by the user file. -/
example : (run (fun _ => some 5) ⟨[[("sep", .str "a"), ("left-span", .int 4)]], 0, []⟩
    [.settings, .clear 1, .update (some [("Span", [("left-span", .ok "5")])])]).heap
    = [[("sep", .str "a"), ("left-span", .int 4)], [], [("sep", .str "a"), ("left-span", .int 5)]] := by decide

/-! ## C80: a settings file that is not there -/

/-- C80 is false: a user file that does not exist gives the defaults, without an error. -/
theorem C80_false (toInt : String → Option Int) (w : World) (hw : w.heap[w.loader]? ≠ none) :
    ∃ w', step toInt w (.update none) = .ok w' ∧ w'.heap.getLast? = w.heap[w.loader]? := by
  refine ⟨_, rfl, ?_⟩
  cases h : w.heap[w.loader]? with
  | none => exact absurd h hw
  | some D => simp [World.give, World.copy, h, Dict.update]

/-- … and a loader for a file that does not exist has no settings at all, without an error. -/
theorem C80_false_loader (toInt : String → Option Int) : newLoader toInt none = .ok ⟨[[]], 0, []⟩ := rfl

end Verif.Setup
