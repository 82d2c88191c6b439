import Verif.Setup.Logging

/-!
# C206, C207, C208: log files and log messages
-/

namespace Verif.Setup.Log
open Verif.Py
open Verif.Vocab.Plain (Str natStr)

/-! ## Specification -/

/-- The files on the disk: every entry has its content, and no file has two entries. -/
structure Disk (st : St) : Prop where
  bound : ∀ p i, st.entries.get? p = some i → i < st.inodes.length
  links : ∀ p q i, st.entries.get? p = some i → st.entries.get? q = some i → p = q

/-- What a warning, an error or a critical message should leave in the log file. -/
def warningLine (r : Record) : Option Str := if 30 ≤ r.level then fileLine r else none

/-- The lines that a history should leave in the log file. -/
def due : List Event → List Str
  | [] => []
  | .log r :: es => (warningLine r).toList ++ due es
  | .construct ws :: es => ws.filterMap warningLine ++ due es
  | _ :: es => due es

/-- Histories of logging, of constructing handlers, and of levels not above `WARNING`; the handlers of the logger are left alone. -/
def Ordinary : Event → Prop
  | .log _ => True
  | .construct _ => True
  | .setLevel n => n ≤ 30
  | _ => False

/-- The same without constructing handlers. -/
def Plain : Event → Prop
  | .log _ => True
  | .setLevel n => n ≤ 30
  | _ => False

/-- Whether a handler is constructed. -/
def isConstruct : Event → Bool
  | .construct _ => true
  | _ => false

/-! ## Lemmas -/

/-- The logger as the package sets it up, with the log in file number `i`. -/
structure Usual (st : St) (i : Nat) : Prop where
  handlers : st.handlers = [⟨10, .console⟩, ⟨30, .file i⟩]
  level : st.level ≤ 30

theorem emit_usual {st : St} {i : Nat} (u : Usual st i) (r : Record) :
    Usual (emit st r) i ∧ (emit st r).entries = st.entries ∧
      (emit st r).inodes = append st.inodes i (warningLine r) := by
  unfold emit
  split
  · next h =>
    rw [u.handlers]
    simp only [List.foldl_cons, List.foldl_nil]
    unfold handle warningLine
    by_cases h10 : 10 ≤ r.level <;> by_cases h30 : 30 ≤ r.level <;>
      simp only [h10, h30, if_true, if_false] <;>
      first
        | exact ⟨⟨u.handlers, u.level⟩, rfl, rfl⟩
        | exact ⟨⟨u.handlers, u.level⟩, trivial, trivial⟩
        | exact ⟨⟨u.handlers, u.level⟩, trivial, rfl⟩
  · next h =>
    have : ¬ 30 ≤ r.level := by have := u.level; omega
    refine ⟨u, rfl, ?_⟩
    rw [warningLine, if_neg this]
    rfl

theorem append_toList (inodes : List (List Str)) (i : Nat) (o : Option Str) :
    append inodes i o = inodes.modify i (· ++ o.toList) := by
  cases o with
  | none =>
    simp only [append, Option.toList_none, List.append_nil]
    exact (List.modify_id i inodes).symm
  | some l => rfl

theorem modify_modify' (l : List (List Str)) (i : Nat) (a b : List Str) :
    (l.modify i (· ++ a)).modify i (· ++ b) = l.modify i (· ++ (a ++ b)) := by
  apply List.ext_getElem?
  intro n
  simp only [List.getElem?_modify]
  split
  · cases l[n]? <;> simp
  · cases l[n]? <;> simp

theorem emits_usual {st : St} {i : Nat} (u : Usual st i) (rs : List Record) :
    Usual (rs.foldl emit st) i ∧ (rs.foldl emit st).entries = st.entries ∧
      (rs.foldl emit st).inodes = st.inodes.modify i (· ++ rs.filterMap warningLine) := by
  induction rs generalizing st with
  | nil =>
    refine ⟨u, rfl, ?_⟩
    simp only [List.foldl_nil, List.filterMap_nil, List.append_nil]
    exact (List.modify_id i st.inodes).symm
  | cons r rs ih =>
    obtain ⟨h1, h2, h3⟩ := emit_usual u r
    obtain ⟨g1, g2, g3⟩ := ih h1
    refine ⟨g1, g2.trans h2, ?_⟩
    rw [List.foldl_cons, g3, h3, append_toList, modify_modify']
    congr 2
    rw [List.filterMap_cons]
    cases warningLine r <;> rfl

theorem any_construct {es : List Event} : es.any isConstruct = true ↔ ∃ ws, Event.construct ws ∈ es := by
  rw [List.any_eq_true]
  constructor
  · rintro ⟨e, he, h⟩
    cases e with
    | construct ws => exact ⟨ws, he⟩
    | _ => exact absurd h (by simp [isConstruct])
  · rintro ⟨ws, h⟩
    exact ⟨_, h, rfl⟩

theorem get?_filter_key (d : Dict Str Nat) (f : Str → Bool) (k : Str) :
    Dict.get? (d.filter (fun e => f e.1)) k = if f k = true then Dict.get? d k else none := by
  induction d with
  | nil => simp
  | cons e d ih =>
    obtain ⟨a, b⟩ := e
    by_cases hf : f a = true
    · rw [List.filter_cons_of_pos (by simpa using hf)]
      rw [Dict.get?_cons, Dict.get?_cons, ih]
      by_cases hk : a = k
      · subst hk
        simp [hf]
      · simp [hk]
    · rw [List.filter_cons_of_neg (by simpa using hf)]
      rw [ih, Dict.get?_cons]
      by_cases hk : a = k
      · subst hk
        simp [hf]
      · simp [hk]

/-- An ordinary history: the log gets its lines, and entries are removed at most. -/
theorem run_usual (home : Str) {st : St} {i : Nat} (u : Usual st i) (es : List Event) (ho : ∀ e ∈ es, Ordinary e) :
    Usual (run home es st) i ∧ (run home es st).inodes = st.inodes.modify i (· ++ due es) ∧
      (run home es st).entries =
        if es.any isConstruct = true then st.entries.filter (fun e => !inTmp home e.1) else st.entries := by
  induction es generalizing st with
  | nil =>
    refine ⟨u, ?_, by simp [run]⟩
    simp only [run, List.foldl_nil, due, List.append_nil]
    exact (List.modify_id i st.inodes).symm
  | cons e es ih =>
    have ho' : ∀ e ∈ es, Ordinary e := fun e he => ho e (by simp [he])
    have hrun : run home (e :: es) st = run home es (step home st e) := rfl
    rw [hrun]
    cases e with
    | log r =>
      obtain ⟨h1, h2, h3⟩ := emit_usual u r
      obtain ⟨g1, g2, g3⟩ := ih (st := emit st r) h1 ho'
      refine ⟨g1, ?_, ?_⟩
      · change (run home es (emit st r)).inodes = _
        rw [g2, h3, append_toList, modify_modify']
        rfl
      · change (run home es (emit st r)).entries = _
        rw [g3, h2]
        simp [isConstruct]
    | construct ws =>
      have u0 : Usual (cleanTmp home st) i := ⟨u.handlers, u.level⟩
      obtain ⟨h1, h2, h3⟩ := emits_usual u0 ws
      obtain ⟨g1, g2, g3⟩ := ih (st := ws.foldl emit (cleanTmp home st)) h1 ho'
      refine ⟨g1, ?_, ?_⟩
      · change (run home es (ws.foldl emit (cleanTmp home st))).inodes = _
        rw [g2, h3]
        change (List.modify st.inodes i _).modify i _ = _
        rw [modify_modify']
        rfl
      · change (run home es (ws.foldl emit (cleanTmp home st))).entries = _
        rw [g3, h2]
        have h0 : (cleanTmp home st).entries = st.entries.filter (fun e => !inTmp home e.1) := rfl
        rw [h0, List.filter_filter]
        simp [isConstruct]
    | setLevel n =>
      have hn : n ≤ 30 := ho (.setLevel n) (by simp)
      obtain ⟨g1, g2, g3⟩ := ih (st := { st with level := n }) ⟨u.handlers, hn⟩ ho'
      refine ⟨g1, g2, ?_⟩
      change (run home es { st with level := n }).entries = _
      rw [g3]
      simp [isConstruct]
    | change p b => exact absurd (ho (.change p b) (by simp)) (fun h => h)
    | addHandler h => exact absurd (ho (.addHandler h) (by simp)) (fun h => h)

theorem openFile_spec {st : St} (d : Disk st) (p : Str) :
    Disk (openFile p st).1 ∧ (openFile p st).1.entries.get? p = some (openFile p st).2 ∧
      (openFile p st).1.inodes[(openFile p st).2]? = some ((read st p).getD []) ∧
      (∀ q, q ≠ p → (openFile p st).1.entries.get? q = st.entries.get? q) ∧
      ∀ j, j < st.inodes.length → (openFile p st).1.inodes[j]? = st.inodes[j]? := by
  unfold openFile
  cases h : st.entries.get? p with
  | some i =>
    have hi := d.bound p i h
    refine ⟨d, h, ?_, fun _ _ => rfl, fun _ _ => rfl⟩
    simp only [read, h]
    rw [List.getElem?_eq_getElem hi]
    rfl
  | none =>
    have hget : ∀ q, (Dict.set st.entries p st.inodes.length).get? q
        = if p = q then some st.inodes.length else st.entries.get? q := fun q => Dict.get?_set _ _ _ _
    refine ⟨⟨?_, ?_⟩, ?_, ?_, ?_, ?_⟩
    · intro q j hq
      simp only at hq ⊢
      rw [hget] at hq
      rw [List.length_append]
      split at hq
      · obtain rfl := Option.some.inj hq
        simp
      · have := d.bound q j hq
        omega
    · intro q q' j hq hq'
      simp only at hq hq'
      rw [hget] at hq hq'
      split at hq <;> split at hq'
      · next a b => exact a.symm.trans b
      · obtain rfl := Option.some.inj hq
        exact absurd (d.bound q' _ hq') (lt_irrefl _)
      · obtain rfl := Option.some.inj hq'
        exact absurd (d.bound q _ hq) (lt_irrefl _)
      · exact d.links q q' j hq hq'
    · simp only
      rw [hget, if_pos rfl]
    · simp [read, h]
    · intro q hq
      simp only
      rw [hget, if_neg (Ne.symm hq)]
    · intro j hj
      simp only
      rw [List.getElem?_append_left hj]

/-- The state after a file handler was put in the second place. -/
def withLog (p : Str) (lv : Nat) (st : St) : St :=
  { (createFileHandler p st).1 with level := lv, handlers := [⟨10, .console⟩, (createFileHandler p st).2] }

theorem withLog_usual (p : Str) {lv : Nat} (h : lv ≤ 30) (st : St) : Usual (withLog p lv st) (openFile p st).2 :=
  ⟨rfl, h⟩

/-- What an ordinary history leaves of the files, from a logger with the log in `p`. -/
theorem read_run (home p : Str) {lv : Nat} (hlv : lv ≤ 30) {st : St} (d : Disk st) (es : List Event)
    (ho : ∀ e ∈ es, Ordinary e) (q : Str) :
    read (run home es (withLog p lv st)) q =
      if es.any isConstruct = true ∧ inTmp home q = true then none
      else if q = p then some ((read st p).getD [] ++ due es)
      else read st q := by
  obtain ⟨-, h2, h3⟩ := run_usual home (withLog_usual p hlv st) es ho
  obtain ⟨d', o1, o2, o3, o4⟩ := openFile_spec d p
  have he : (withLog p lv st).entries = (openFile p st).1.entries := rfl
  have hi : (withLog p lv st).inodes = (openFile p st).1.inodes := rfl
  rw [he] at h3
  rw [hi] at h2
  have hget : (run home es (withLog p lv st)).entries.get? q =
      if es.any isConstruct = true ∧ inTmp home q = true then none else (openFile p st).1.entries.get? q := by
    rw [h3]
    cases hc : es.any isConstruct with
    | false => simp
    | true =>
      simp only [if_true, true_and]
      rw [get?_filter_key _ (fun k => !inTmp home k)]
      cases inTmp home q <;> simp
  by_cases hb : es.any isConstruct = true ∧ inTmp home q = true
  · rw [if_pos hb] at hget
    rw [if_pos hb, read, hget]
  · rw [if_neg hb] at hget
    rw [if_neg hb, read, hget, h2]
    by_cases hq : q = p
    · subst hq
      rw [if_pos rfl, o1]
      simp only [List.getElem?_modify, if_true, o2]
      rfl
    · rw [if_neg hq, o3 q hq]
      unfold read
      cases hs : st.entries.get? q with
      | none => rfl
      | some j =>
        have hj := d.bound q j hs
        have hne : ¬ (openFile p st).2 = j := by
          intro e
          exact hq (d'.links q p j (by rw [o3 q hq]; exact hs) (by rw [o1, e]))
        simp only [List.getElem?_modify, if_neg hne, o4 j hj]
        cases st.inodes[j]? <;> rfl

theorem Disk.of_sub {S T : St} (d : Disk S) (hl : T.inodes.length = S.inodes.length)
    (h : ∀ q j, T.entries.get? q = some j → S.entries.get? q = some j) : Disk T :=
  ⟨fun q j hq => by rw [hl]; exact d.bound q j (h q j hq),
    fun q q' j hq hq' => d.links q q' j (h q j hq) (h q' j hq')⟩

theorem disk_run (home : Str) {st : St} {i : Nat} (u : Usual st i) (d : Disk st) (es : List Event)
    (ho : ∀ e ∈ es, Ordinary e) : Disk (run home es st) := by
  obtain ⟨-, g2, g3⟩ := run_usual home u es ho
  refine d.of_sub (by rw [g2, List.length_modify]) ?_
  intro q j hq
  rw [g3] at hq
  split at hq
  · rw [get?_filter_key _ (fun k => !inTmp home k)] at hq
    split at hq
    · exact hq
    · exact nomatch hq
  · exact hq

theorem disk_withLog (p : Str) (lv : Nat) {st : St} (d : Disk st) : Disk (withLog p lv st) :=
  (openFile_spec d p).1.of_sub rfl (fun _ _ h => h)

theorem change_usual {T : St} {i : Nat} (u : Usual T i) (p : Str) : changeLogFile p true T = (withLog p T.level T, none) := by
  have hl : (openFile p T).1.level = T.level := by
    unfold openFile
    split <;> rfl
  unfold changeLogFile
  rw [u.handlers]
  unfold withLog createFileHandler
  simp only [List.dropLast, List.cons_append, List.nil_append, if_true]
  rw [← hl]

/-- Ordinary events and changes of the log file. -/
def Known (e : Event) : Prop := Ordinary e ∨ ∃ p, e = .change p

theorem reach (home : Str) {st : St} (d : Disk st) (es : List Event) (hk : ∀ e ∈ es, Known e) :
    Disk (run home es (initLogging home st)) ∧ ∃ i, Usual (run home es (initLogging home st)) i := by
  have main : ∀ (es : List Event) (S : St) (i : Nat), Usual S i → Disk S → (∀ e ∈ es, Known e) →
      Disk (run home es S) ∧ ∃ i, Usual (run home es S) i := by
    intro es
    induction es with
    | nil => exact fun S i u dS _ => ⟨dS, i, u⟩
    | cons e es ih =>
      intro S i u dS hk
      have hk' : ∀ e ∈ es, Known e := fun e he => hk e (by simp [he])
      rcases hk e (by simp) with ho | ⟨p, rfl⟩
      · have h1 : ∀ x ∈ [e], Ordinary x := by simpa using ho
        exact ih (step home S e) i (run_usual home u [e] h1).1 (disk_run home u dS [e] h1) hk'
      · have hc : step home S (.change p) = withLog p S.level S := by
          change (changeLogFile p true S).1 = _
          rw [change_usual u]
        have h2 := ih (step home S (.change p)) (openFile p S).2 (hc ▸ withLog_usual p u.level S)
          (hc ▸ disk_withLog p S.level dS) hk'
        exact h2
  exact main es _ _ (withLog_usual (logPath home) (lv := 20) (by omega) st) (disk_withLog _ _ d) hk

/-! ## C206 -/

theorem inTmp_logPath (home : Str) : inTmp home (logPath home) = true := by
  unfold inTmp logPath
  rw [List.isPrefixOf_iff_prefix]
  exact ⟨"nephosem.log".toList, by rw [List.append_assoc]; rfl⟩

theorem not_construct_of_plain {es : List Event} (h : ∀ e ∈ es, Plain e) : ¬ ∃ ws, Event.construct ws ∈ es :=
  fun ⟨ws, hw⟩ => h (.construct ws) hw

theorem ordinary_of_plain {es : List Event} (h : ∀ e ∈ es, Plain e) : ∀ e ∈ es, Ordinary e := by
  intro e he
  have := h e he
  cases e <;> first | exact this | trivial

/-- **C206**, partial.  As long as no handler is constructed, the log file has what it had and then, in order, every message of level
`WARNING` or above; the other files are as before.  Missing: handlers (`C206_lost`). -/
theorem C206_partial (home : Str) {st : St} (d : Disk st) (es : List Event) (h : ∀ e ∈ es, Plain e) (q : Str) :
    read (run home es (initLogging home st)) q =
      if q = logPath home then some ((read st (logPath home)).getD [] ++ due es) else read st q := by
  have := read_run home (logPath home) (lv := 20) (by omega) d es (ordinary_of_plain h) q
  rw [if_neg (fun hc => not_construct_of_plain h (any_construct.1 hc.1))] at this
  exact this

/-- **C206** is false once a handler is constructed: whatever was logged before and whatever is logged afterwards, there is no log file,
and no other file has any of the messages. -/
theorem C206_lost (home : Str) {st : St} (d : Disk st) (es : List Event) (h : ∀ e ∈ es, Ordinary e)
    (hc : ∃ ws, Event.construct ws ∈ es) :
    read (run home es (initLogging home st)) (logPath home) = none ∧
      ∀ q, inTmp home q = false → read (run home es (initLogging home st)) q = read st q := by
  have key := read_run home (logPath home) (lv := 20) (by omega) d es h
  constructor
  · have := key (logPath home)
    rw [if_pos ⟨any_construct.2 hc, inTmp_logPath home⟩] at this
    exact this
  · intro q hq
    have := key q
    rw [if_neg (fun h => by rw [hq] at h; exact absurd h.2 (by simp)),
      if_neg (fun e => by rw [e, inTmp_logPath] at hq; exact absurd hq (by simp))] at this
    exact this

/-- **C208**.  After `change_log_file(p)`, which succeeds, `p` gets the messages that are due and the former log file stays as it was; the
same holds for the next change.  (For `p` in `~/tmp` only until a handler is constructed.) -/
theorem C208_changed (home p : Str) {st : St} (d : Disk st) (es₁ es₂ : List Event) (h₁ : ∀ e ∈ es₁, Known e)
    (h₂ : ∀ e ∈ es₂, Ordinary e) (q : Str) :
    (changeLogFile p true (run home es₁ (initLogging home st))).2 = none ∧
      read (run home (es₁ ++ .change p :: es₂) (initLogging home st)) q =
        if es₂.any isConstruct = true ∧ inTmp home q = true then none
        else if q = p then some ((read (run home es₁ (initLogging home st)) p).getD [] ++ due es₂)
        else read (run home es₁ (initLogging home st)) q := by
  have hr : run home (es₁ ++ .change p :: es₂) (initLogging home st)
      = run home es₂ (changeLogFile p true (run home es₁ (initLogging home st))).1 := by
    simp only [run, List.foldl_append, List.foldl_cons]
    rfl
  obtain ⟨dT, i, u⟩ := reach home d es₁ h₁
  rw [hr, change_usual u]
  refine ⟨rfl, ?_⟩
  exact read_run home p u.level dT es₂ h₂ q

/-- C206: a log file outside `~/tmp` has all messages since the change, those of constructors included. -/
theorem C206_outside (home p : Str) (hp : inTmp home p = false) {st : St} (d : Disk st) (es₁ es₂ : List Event)
    (h₁ : ∀ e ∈ es₁, Ordinary e) (h₂ : ∀ e ∈ es₂, Ordinary e) :
    read (run home (es₁ ++ .change p :: es₂) (initLogging home st)) p = some ((read st p).getD [] ++ due es₂) := by
  have hne : p ≠ logPath home := fun e => by rw [e, inTmp_logPath] at hp; exact absurd hp (by simp)
  rw [(C208_changed home p d es₁ es₂ (fun e he => .inl (h₁ e he)) h₂ p).2,
    if_neg (fun h => by rw [hp] at h; exact absurd h.2 (by simp)), if_pos rfl]
  have := read_run home (logPath home) (lv := 20) (by omega) d es₁ h₁ p
  rw [if_neg (fun h => by rw [hp] at h; exact absurd h.2 (by simp)), if_neg hne] at this
  have hS : run home es₁ (initLogging home st) = run home es₁ (withLog (logPath home) 20 st) := rfl
  rw [hS, this]

/-- A warning, a handler, and another warning. -/
example :
    let st : St := ⟨0, [], [], [], [], []⟩
    let w : Record := { level := 30, msg := "no %s".toList, args := ["path".toList], time := "12:00".toList }
    let es : List Event := [.log w]
    read (run "/home".toList es (initLogging "/home".toList st)) (logPath "/home".toList)
        = some ["12:00 [WARNING]: no path".toList] ∧
      read (run "/home".toList (es ++ [.construct [w], .log w]) (initLogging "/home".toList st)) (logPath "/home".toList) = none ∧
      read (run "/home".toList (es ++ [.change "/log".toList, .construct [w], .log w]) (initLogging "/home".toList st)) "/log".toList
        = some ["12:00 [WARNING]: no path".toList, "12:00 [WARNING]: no path".toList] := by
  decide +kernel

/-! ## C208 -/

theorem level_open (p : Str) (S : St) : (openFile p S).1.level = S.level ∧ (openFile p S).1.users = S.users ∧
    (openFile p S).1.console = S.console := by
  unfold openFile
  split <;> exact ⟨rfl, rfl, rfl⟩

/-- **C208** is false when the user has added a handler: that handler is removed instead of the log file, so that it gets no message,
and messages go to both files. -/
theorem C208_false (home p : Str) (hp : p ≠ logPath home) {st : St} (d : Disk st) (es : List Event)
    (h : ∀ e ∈ es, Plain e) (n : Nat) (r : Record) (l : Str) (hr : 30 ≤ r.level) (hl : fileLine r = some l) :
    (run home (es ++ [.addHandler n, .change p, .log r]) (initLogging home st)).users
        = (run home es (initLogging home st)).users ∧
      read (run home (es ++ [.addHandler n, .change p, .log r]) (initLogging home st)) (logPath home)
        = some ((read st (logPath home)).getD [] ++ due es ++ [l]) ∧
      read (run home (es ++ [.addHandler n, .change p, .log r]) (initLogging home st)) p
        = some ((read st p).getD [] ++ [l]) := by
  have hk : ∀ e ∈ es, Known e := fun e he => .inl (ordinary_of_plain h e he)
  have hS1 := C206_partial home d es h (logPath home)
  have hS2 := C206_partial home d es h p
  rw [if_pos rfl] at hS1
  rw [if_neg hp] at hS2
  obtain ⟨dS, -⟩ := reach home d es hk
  obtain ⟨u, -, e3⟩ := run_usual home (withLog_usual (logPath home) (lv := 20) (by omega) st) es (ordinary_of_plain h)
  have hi : (run home es (initLogging home st)).entries.get? (logPath home) = some (openFile (logPath home) st).2 := by
    have e3' : (run home es (initLogging home st)).entries = (openFile (logPath home) st).1.entries :=
      e3.trans (if_neg (fun hc => not_construct_of_plain h (any_construct.1 hc)))
    rw [e3']
    exact (openFile_spec d (logPath home)).2.1
  change Usual (run home es (initLogging home st)) _ at u
  have hrun : run home (es ++ [.addHandler n, .change p, .log r]) (initLogging home st)
      = run home [.addHandler n, .change p, .log r] (run home es (initLogging home st)) := by
    simp only [run, List.foldl_append]
  rw [hrun]
  generalize run home es (initLogging home st) = S at *
  generalize (openFile (logPath home) st).2 = i at *
  let S' : St := { S with handlers := S.handlers ++ [⟨10, .user n⟩] }
  have dS' : Disk S' := ⟨dS.bound, dS.links⟩
  obtain ⟨d', o1, o2, o3, o4⟩ := openFile_spec dS' p
  obtain ⟨l1, l2, -⟩ := level_open p S'
  have hF : run home [.addHandler n, .change p, .log r] S
      = emit { (openFile p S').1 with handlers := [⟨10, .console⟩, ⟨30, .file i⟩, ⟨30, .file (openFile p S').2⟩] } r := by
    change emit (changeLogFile p true S').1 r = _
    unfold changeLogFile
    have : S'.handlers = [⟨10, .console⟩, ⟨30, .file i⟩, ⟨10, .user n⟩] := by
      change S.handlers ++ _ = _
      rw [u.handlers]
      rfl
    rw [this]
    rfl
  rw [hF]
  have hlev : (openFile p S').1.level ≤ r.level := by rw [l1]; exact le_trans u.level hr
  have h10 : 10 ≤ r.level := by omega
  unfold emit
  simp only [hlev, if_true, List.foldl_cons, List.foldl_nil, handle, h10, hr, hl, append]
  have hne : (openFile p S').2 ≠ i := by
    intro e
    exact hp (d'.links p (logPath home) i (by rw [o1, e]) (by rw [o3 _ (Ne.symm hp)]; exact hi))
  refine ⟨l2, ?_, ?_⟩
  · simp only [read]
    rw [o3 _ (Ne.symm hp)]
    change (match S.entries.get? (logPath home) with | none => none | some i => _) = _
    rw [hi]
    simp only [List.getElem?_modify, if_true, if_neg hne]
    rw [o4 i (dS.bound _ _ hi)]
    have : S.inodes[i]? = read S (logPath home) := by
      rw [read, hi]
    change (_ <$> (_ <$> S.inodes[i]?)) = _
    rw [this, hS1]
    rfl
  · simp only [read]
    rw [o1]
    simp only [List.getElem?_modify, if_true, if_neg (Ne.symm hne), o2]
    have : read S' p = read S p := rfl
    rw [this, hS2]
    rfl

/-- **C208**: a logger without handlers is an `IndexError`; nothing is changed. -/
theorem C208_none (p : Str) (b : Bool) (st : St) (h : st.handlers = []) : changeLogFile p b st = (st, some .index) := by
  unfold changeLogFile
  rw [h]

/-- Ordinary histories with any handlers. -/
theorem run_any (home : Str) (st : St) (es : List Event) (ho : ∀ e ∈ es, Ordinary e) :
    (run home es st).handlers = st.handlers ∧
      ((∀ h ∈ st.handlers, ∀ i, h.sink ≠ .file i) → (run home es st).inodes = st.inodes) ∧
      ((∀ h ∈ st.handlers, h.sink ≠ .console) → (run home es st).console = st.console) ∧
      ∀ q, inTmp home q = false ∨ (¬ ∃ ws, Event.construct ws ∈ es) →
        (run home es st).entries.get? q = st.entries.get? q := by
  have hh : ∀ (hs : List Handler) (r : Record) (S : St), (hs.foldl (handle r) S).handlers = S.handlers ∧
      ((∀ h ∈ hs, ∀ i, h.sink ≠ .file i) → (hs.foldl (handle r) S).inodes = S.inodes) ∧
      ((∀ h ∈ hs, h.sink ≠ .console) → (hs.foldl (handle r) S).console = S.console) ∧
      (hs.foldl (handle r) S).entries = S.entries := by
    intro hs r
    induction hs with
    | nil => exact fun S => ⟨rfl, fun _ => rfl, fun _ => rfl, rfl⟩
    | cons h hs ih =>
      intro S
      obtain ⟨i1, i2, i3, i4⟩ := ih (handle r S h)
      obtain ⟨k1, k2, k3, k4⟩ : (handle r S h).handlers = S.handlers ∧
          ((∀ i, h.sink ≠ .file i) → (handle r S h).inodes = S.inodes) ∧
          (h.sink ≠ .console → (handle r S h).console = S.console) ∧ (handle r S h).entries = S.entries := by
        unfold handle
        split
        · cases hs : h.sink with
          | console => exact ⟨rfl, fun _ => rfl, fun c => absurd rfl c, rfl⟩
          | file i => exact ⟨rfl, fun c => absurd rfl (c i), fun _ => rfl, rfl⟩
          | user n => exact ⟨rfl, fun _ => rfl, fun _ => rfl, rfl⟩
        · exact ⟨rfl, fun _ => rfl, fun _ => rfl, rfl⟩
      exact ⟨i1.trans k1, fun c => (i2 (fun x hx => c x (by simp [hx]))).trans (k2 (c h (by simp))),
        fun c => (i3 (fun x hx => c x (by simp [hx]))).trans (k3 (c h (by simp))), i4.trans k4⟩
  have he : ∀ (S : St) (r : Record), (emit S r).handlers = S.handlers ∧
      ((∀ h ∈ S.handlers, ∀ i, h.sink ≠ .file i) → (emit S r).inodes = S.inodes) ∧
      ((∀ h ∈ S.handlers, h.sink ≠ .console) → (emit S r).console = S.console) ∧ (emit S r).entries = S.entries := by
    intro S r
    unfold emit
    split
    · exact hh S.handlers r S
    · exact ⟨rfl, fun _ => rfl, fun _ => rfl, rfl⟩
  have hes : ∀ (rs : List Record) (S : St), (rs.foldl emit S).handlers = S.handlers ∧
      ((∀ h ∈ S.handlers, ∀ i, h.sink ≠ .file i) → (rs.foldl emit S).inodes = S.inodes) ∧
      ((∀ h ∈ S.handlers, h.sink ≠ .console) → (rs.foldl emit S).console = S.console) ∧
      (rs.foldl emit S).entries = S.entries := by
    intro rs
    induction rs with
    | nil => exact fun S => ⟨rfl, fun _ => rfl, fun _ => rfl, rfl⟩
    | cons r rs ih =>
      intro S
      obtain ⟨i1, i2, i3, i4⟩ := ih (emit S r)
      obtain ⟨k1, k2, k3, k4⟩ := he S r
      rw [k1] at i2 i3
      exact ⟨i1.trans k1, fun c => (i2 c).trans (k2 c), fun c => (i3 c).trans (k3 c), i4.trans k4⟩
  induction es generalizing st with
  | nil => exact ⟨rfl, fun _ => rfl, fun _ => rfl, fun _ _ => rfl⟩
  | cons e es ih =>
    obtain ⟨i1, i2, i3, i4⟩ := ih (step home st e) (fun x hx => ho x (by simp [hx]))
    have hrun : run home (e :: es) st = run home es (step home st e) := rfl
    rw [hrun]
    have hstep : (step home st e).handlers = st.handlers ∧
        ((∀ h ∈ st.handlers, ∀ i, h.sink ≠ .file i) → (step home st e).inodes = st.inodes) ∧
        ((∀ h ∈ st.handlers, h.sink ≠ .console) → (step home st e).console = st.console) ∧
        ∀ q, inTmp home q = false ∨ (∀ ws, e ≠ .construct ws) → (step home st e).entries.get? q = st.entries.get? q := by
      cases e with
      | log r =>
        obtain ⟨k1, k2, k3, k4⟩ := he st r
        exact ⟨k1, k2, k3, fun q _ => by change (emit st r).entries.get? q = _; rw [k4]⟩
      | construct ws =>
        obtain ⟨k1, k2, k3, k4⟩ := hes ws (cleanTmp home st)
        refine ⟨k1, k2, k3, fun q hq => ?_⟩
        change (ws.foldl emit (cleanTmp home st)).entries.get? q = _
        rw [k4]
        change Dict.get? (st.entries.filter _) q = _
        rw [get?_filter_key _ (fun k => !inTmp home k)]
        rcases hq with hq | hq
        · rw [hq]
          rfl
        · exact absurd rfl (hq ws)
      | setLevel n => exact ⟨rfl, fun _ => rfl, fun _ => rfl, fun _ _ => rfl⟩
      | change p b => exact absurd (ho (.change p b) (by simp)) (fun h => h)
      | addHandler h => exact absurd (ho (.addHandler h) (by simp)) (fun h => h)
    obtain ⟨k1, k2, k3, k4⟩ := hstep
    rw [k1] at i2 i3
    refine ⟨i1.trans k1, fun c => (i2 c).trans (k2 c), fun c => (i3 c).trans (k3 c), fun q hq => ?_⟩
    rw [i4 q (hq.imp id (fun c ⟨ws, hw⟩ => c ⟨ws, by simp [hw]⟩)),
      k4 q (hq.imp id (fun c ws e' => c ⟨ws, by simp [e']⟩))]

/-- **C208** is false when the new file cannot be opened: the call raises, but the former log file is no longer written to either, nor
is any other file. -/
theorem C208_unopened (home p : Str) {st : St} (d : Disk st) (es₁ es₂ : List Event) (h₁ : ∀ e ∈ es₁, Known e)
    (h₂ : ∀ e ∈ es₂, Ordinary e) (q : Str) (hq : inTmp home q = false ∨ (¬ ∃ ws, Event.construct ws ∈ es₂)) :
    (changeLogFile p false (run home es₁ (initLogging home st))).2 = some .os ∧
      read (run home (es₁ ++ .change p false :: es₂) (initLogging home st)) q
        = read (run home es₁ (initLogging home st)) q := by
  obtain ⟨-, i, u⟩ := reach home d es₁ h₁
  have hr : run home (es₁ ++ .change p false :: es₂) (initLogging home st)
      = run home es₂ (changeLogFile p false (run home es₁ (initLogging home st))).1 := by
    simp only [run, List.foldl_append, List.foldl_cons]
    rfl
  have hc : changeLogFile p false (run home es₁ (initLogging home st))
      = ({ run home es₁ (initLogging home st) with handlers := [⟨10, .console⟩] }, some .os) := by
    unfold changeLogFile
    rw [u.handlers]
    rfl
  rw [hr, hc]
  refine ⟨rfl, ?_⟩
  obtain ⟨-, g2, -, g4⟩ := run_any home { run home es₁ (initLogging home st) with handlers := [⟨10, .console⟩] } es₂ h₂
  rw [read, g4 q hq, g2 (by simp)]
  rfl

/-- … and the next change, which succeeds, removes the console: no message is shown any more. -/
theorem C208_silent (home p p' : Str) {st : St} (d : Disk st) (es₁ es₂ es₃ : List Event) (h₁ : ∀ e ∈ es₁, Known e)
    (h₂ : ∀ e ∈ es₂, Ordinary e) (h₃ : ∀ e ∈ es₃, Ordinary e) :
    (run home (es₁ ++ .change p false :: (es₂ ++ .change p' :: es₃)) (initLogging home st)).console
      = (run home (es₁ ++ .change p false :: es₂) (initLogging home st)).console := by
  obtain ⟨-, i, u⟩ := reach home d es₁ h₁
  have hc : changeLogFile p false (run home es₁ (initLogging home st))
      = ({ run home es₁ (initLogging home st) with handlers := [⟨10, .console⟩] }, some .os) := by
    unfold changeLogFile
    rw [u.handlers]
    rfl
  have hr : run home (es₁ ++ .change p false :: es₂) (initLogging home st)
      = run home es₂ (changeLogFile p false (run home es₁ (initLogging home st))).1 := by
    simp only [run, List.foldl_append, List.foldl_cons]
    rfl
  have hr' : run home (es₁ ++ .change p false :: (es₂ ++ .change p' :: es₃)) (initLogging home st)
      = run home es₃ (changeLogFile p' true (run home (es₁ ++ .change p false :: es₂) (initLogging home st))).1 := by
    simp only [run, List.foldl_append, List.foldl_cons]
    rfl
  have hT : (run home (es₁ ++ .change p false :: es₂) (initLogging home st)).handlers = [⟨10, .console⟩] := by
    rw [hr, hc]
    exact (run_any home { run home es₁ (initLogging home st) with handlers := [⟨10, .console⟩] } es₂ h₂).1
  rw [hr']
  generalize run home (es₁ ++ .change p false :: es₂) (initLogging home st) = T at *
  have hc' : changeLogFile p' true T = ({ (openFile p' T).1 with handlers := [⟨30, .file (openFile p' T).2⟩] }, none) := by
    unfold changeLogFile
    rw [hT]
    rfl
  rw [hc']
  rw [(run_any home { (openFile p' T).1 with handlers := [⟨30, .file (openFile p' T).2⟩] } es₃ h₃).2.2.1 (by simp)]
  exact (level_open p' T).2.2

/-- Two changes; a handler of the user; a path that cannot be opened. -/
example :
    let st : St := ⟨0, [], [], [], [], []⟩
    let w : Record := { level := 30, msg := "w".toList, time := "12:00".toList }
    let l := "12:00 [WARNING]: w".toList
    let home := "/home".toList
    let F := run home [.log w, .change "/a".toList, .log w, .change "/b".toList, .log w] (initLogging home st)
    let G := run home [.addHandler 1, .log w, .change "/a".toList, .log w] (initLogging home st)
    let H := run home [.log w, .change "/no/a".toList false, .log w, .change "/b".toList, .log w] (initLogging home st)
    (read F (logPath home) = some [l] ∧ read F "/a".toList = some [l] ∧ read F "/b".toList = some [l] ∧ F.console.length = 3) ∧
      (G.users.length = 1 ∧ read G (logPath home) = some [l, l] ∧ read G "/a".toList = some [l]) ∧
      (read H (logPath home) = some [l] ∧ read H "/b".toList = some [l] ∧ H.console.length = 2) := by
  decide +kernel

/-! ## C207 -/

/-- **C207**, partial: a message without arguments is shown as it is, after the name of its level.  Missing: messages with arguments
(`C207_false`). -/
theorem C207_partial (r : Record) (ha : r.args = []) (he : r.exc = none) :
    (r.level = 20 → consoleLine r = some r.msg) ∧ (r.level = 30 → consoleLine r = some ("WARNING: ".toList ++ r.msg)) ∧
      (r.level = 40 → consoleLine r = some ("ERROR: ".toList ++ r.msg)) := by
  unfold consoleLine message consoleText withExc
  rw [he, if_pos ha]
  refine ⟨fun h => ?_, fun h => ?_, fun h => ?_⟩ <;> simp [h]

/-- **C207** is false for messages with arguments: the console does not depend on them. -/
theorem C207_false (r : Record) (as : List Str) (m m' : Str) (h : message r = some m)
    (h' : message { r with args := as } = some m') : consoleLine { r with args := as } = consoleLine r := by
  unfold consoleLine
  rw [h, h']
  rfl

/-- C207: messages that insert their arguments literally.  `pieces` are the parts between the `%s`. -/
def fill : List Str → List Str → Str
  | [], _ => []
  | p :: ps, [] => p ++ fill ps []
  | p :: ps, a :: as => p ++ a ++ fill ps as

/-- The first argument of the call. -/
def format : List Str → Str
  | [] => []
  | [p] => p
  | p :: ps => p ++ "%s".toList ++ format ps

theorem interp_text (p rest : Str) (hp : '%' ∉ p) (as : List Str) :
    interp (p ++ rest) as = (interp rest as).map (p ++ ·) := by
  induction p with
  | nil => simp
  | cons c p ih =>
    have hc : c ≠ '%' := fun e => hp (by simp [e])
    have := ih (fun h => hp (by simp [h]))
    rw [List.cons_append, interp]
    · rw [if_neg hc, this]
      cases interp rest as <;> rfl
    all_goals
      intros
      exact absurd ‹c = '%'› hc

/-- **C207**, in the log file: every argument is in its place. -/
theorem C207_file (r : Record) (ps : List Str) (hps : ∀ p ∈ ps, '%' ∉ p) (ha : ps.length = r.args.length + 1) (hne : r.args ≠ [])
    (hm : r.msg = format ps) (he : r.exc = none) :
    fileLine r = some (r.time ++ " [".toList ++ levelName r.level ++ "]: ".toList ++ fill ps r.args) := by
  have key : ∀ (as ps : List Str), (∀ p ∈ ps, '%' ∉ p) → ps.length = as.length + 1 → interp (format ps) as = some (fill ps as) := by
    intro as
    induction as with
    | nil =>
      intro ps hps hl
      obtain ⟨p, rfl⟩ := List.length_eq_one_iff.1 hl
      have := interp_text p [] (hps p (by simp)) []
      rw [List.append_nil] at this
      simp [format, fill, this, interp]
    | cons a as ih =>
      intro ps hps hl
      match ps, hl with
      | p :: q :: ps, hl =>
        have h2 := ih (q :: ps) (fun x hx => hps x (by simp [hx])) (by simpa using hl)
        have : format (p :: q :: ps) = p ++ ('%' :: 's' :: format (q :: ps)) := by
          simp [format]
        rw [this, interp_text p _ (hps p (by simp))]
        rw [interp, h2]
        simp [fill]
  unfold fileLine message withExc
  rw [he, if_neg hne, hm, key r.args ps hps ha]
  rfl

/-- **C207**, in the log file: the names of the levels. -/
theorem C207_levels (r : Record) (ha : r.args = []) (he : r.exc = none) :
    (r.level = 30 → fileLine r = some (r.time ++ " [WARNING]: ".toList ++ r.msg)) ∧
    (r.level = 40 → fileLine r = some (r.time ++ " [ERROR]: ".toList ++ r.msg)) ∧
    (r.level = 50 → fileLine r = some (r.time ++ " [CRITICAL]: ".toList ++ r.msg)) := by
  unfold fileLine message levelName withExc
  rw [he, if_pos ha]
  refine ⟨fun h => ?_, fun h => ?_, fun h => ?_⟩ <;> simp [h]

/-- **C207**, `logger.exception`: on the console and in the log file the traceback follows the line of the message, on a line of its own
if the message does not end its line. -/
theorem C207_exception (r : Record) (e : Str) (he : r.exc = some e) :
    (∀ s, consoleLine { r with exc := none } = some s → s.getLast? ≠ some '\n' → consoleLine r = some (s ++ '\n' :: e)) ∧
    (∀ s, consoleLine { r with exc := none } = some s → s.getLast? = some '\n' → consoleLine r = some (s ++ e)) ∧
    (∀ s, fileLine { r with exc := none } = some s → s.getLast? ≠ some '\n' → fileLine r = some (s ++ '\n' :: e)) ∧
    (∀ s, fileLine { r with exc := none } = some s → s.getLast? = some '\n' → fileLine r = some (s ++ e)) := by
  have hm : message { r with exc := none } = message r := rfl
  have hc : consoleText { r with exc := none } = consoleText r := rfl
  unfold consoleLine fileLine
  rw [hm, hc]
  cases message r with
  | none => simp
  | some m =>
    simp only [Option.map_some, withExc, he, Option.some.injEq]
    refine ⟨?_, ?_, ?_, ?_⟩
    · rintro s rfl h
      rw [if_neg h]
      simp
    · rintro s rfl h
      rw [if_pos h]
    · rintro s rfl h
      rw [if_neg h]
      simp
    · rintro s rfl h
      rw [if_pos h]

/-- C207: too few or too many arguments leave no line at all, on the console as in the file. -/
theorem C207_misfit (r : Record) (ps : List Str) (hps : ∀ p ∈ ps, '%' ∉ p) (hn : ps ≠ []) (ha : ps.length ≠ r.args.length + 1)
    (hne : r.args ≠ []) (hm : r.msg = format ps) : consoleLine r = none ∧ fileLine r = none := by
  have key : ∀ (ps as : List Str), (∀ p ∈ ps, '%' ∉ p) → ps ≠ [] → ps.length ≠ as.length + 1 → interp (format ps) as = none := by
    intro ps
    induction ps with
    | nil => intro as _ h; exact absurd rfl h
    | cons p ps ih =>
      intro as hps _ hl
      match ps, ih, hl with
      | [], _, hl =>
        have := interp_text p [] (hps p (by simp)) as
        rw [List.append_nil] at this
        cases as with
        | nil => exact absurd rfl hl
        | cons a as => simp [format, this, interp]
      | q :: ps, ih, hl =>
        have e : format (p :: q :: ps) = p ++ ('%' :: 's' :: format (q :: ps)) := by simp [format]
        rw [e, interp_text p _ (hps p (by simp))]
        cases as with
        | nil => simp [interp]
        | cons a as =>
          rw [interp, ih as (fun x hx => hps x (by simp [hx])) (by simp) (by simpa using hl)]
          rfl
  unfold consoleLine fileLine message
  rw [if_neg hne, hm, key ps r.args hps hn ha]
  exact ⟨rfl, rfl⟩

/-- The message of `SaveLoad.load`, `utils.py:510`. -/
example :
    let r : Record := { level := 20, msg := "loading %s object from %s".toList, args := ["Vocab".toList, "v.json".toList], time := "12:00".toList }
    consoleLine r = some "loading %s object from %s".toList ∧
      message r = some "loading Vocab object from v.json".toList ∧
      fileLine r = some "12:00 [INFO]: loading Vocab object from v.json".toList ∧
      consoleLine { r with args := ["Vocab".toList] } = none ∧
      fileLine { r with args := ["Vocab".toList, "v.json".toList, "?".toList] } = none ∧
      r.msg = format ["loading ".toList, " object from ".toList, [] ] := by
  decide +kernel

end Verif.Setup.Log
