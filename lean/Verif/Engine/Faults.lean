import Verif.Engine.Accumulate

/-!
# Runs in which some files cannot be processed

An exception in a worker (`open` fails, a byte cannot be decoded, a `ValueError` for an unknown mode) is caught nowhere in
`_worker_loop` (`/repo/nephosem/models/typetoken.py:107-124, 228-334, 538-562`, `/repo/nephosem/models/deprel.py:172-192`):
`multiprocessing` prints it and the process ends.  Here the files that raise are the files with a property `bad`, and a
worker dies exactly when it holds such a file.
-/

namespace Verif.Engine

variable {J A R : Type}

/-- What can happen when exactly the files with `bad` raise: no such file is finished, and no worker dies for another reason. -/
def Permitted (bad : J → Prop) : Action → State J A R → Prop
  | .work i, s => ∀ b j, s.workers[i]? = some (.busy b j) → ¬ bad j
  | .crash i, s => ∃ b j, s.workers[i]? = some (.busy b j) ∧ bad j
  | _, _ => True

/-- A run in which exactly the files with `bad` raise. -/
def Obeys (bad : J → Prop) (p : Prog J A R) : List Action → State J A R → Prop
  | [], _ => True
  | a :: as, s => Permitted bad a s ∧ ∀ s', step p a s = some s' → Obeys bad p as s'

theorem obeys_invariant (bad : J → Prop) (p : Prog J A R) (I : State J A R → Prop)
    (h : ∀ a s s', Permitted bad a s → I s → step p a s = some s' → I s') :
    ∀ as s s', Obeys bad p as s → I s → exec p as s = some s' → I s' := by
  intro as
  induction as with
  | nil => intro s s' _ hs he; simp only [exec, Option.some.injEq] at he; exact he ▸ hs
  | cons a as ih =>
    intro s s' hok hs he
    simp only [exec] at he
    cases hq : step p a s with
    | none => rw [hq] at he; cases he
    | some s1 =>
      rw [hq] at he
      exact ih s1 s' (hok.2 s1 hq) (h a s s1 hok.1 hs hq) he

/-- No file that raises is finished. -/
theorem finished_good {bad : J → Prop} {p : Prog J A R} : ∀ {as : List Action} {s : State J A R}, Obeys bad p as s →
    ∀ j ∈ finished p as s, ¬ bad j := by
  intro as
  induction as with
  | nil => intro s _ j hj; cases hj
  | cons a as ih =>
    intro s hok j hj
    simp only [finished, List.mem_append] at hj
    rcases hj with hj | hj
    · cases a with
      | work i =>
        simp only [completes] at hj
        cases hw : s.workers[i]? with
        | none => rw [hw] at hj; cases hj
        | some w =>
          rw [hw] at hj
          cases w with
          | busy b k =>
            rw [List.mem_singleton.1 hj]
            exact hok.1 b k hw
          | idle b => cases hj
          | stopping b => cases hj
          | done b => cases hj
          | crashed => cases hj
      | produce => cases hj
      | take i => cases hj
      | crash i => cases hj
    · cases hq : step p a s with
      | none => rw [hq] at hj; cases hj
      | some s1 =>
        rw [hq] at hj
        exact ih (hok.2 s1 hq) j hj

/-! ### One dead worker for each file that raises -/

/-- Files that raise in a queue. -/
def badIn (bad : J → Prop) [DecidablePred bad] : Option J → Nat
  | some j => if bad j then 1 else 0
  | none => 0

/-- A worker that holds a file that raises, or that died. -/
def hit (bad : J → Prop) [DecidablePred bad] : WState J A → Nat
  | .busy _ j => if bad j then 1 else 0
  | .crashed => 1
  | _ => 0

/-- A worker that put its last result. -/
def ended : WState J A → Nat
  | .done _ => 1
  | _ => 0

/-- All files that raise: in the queue, held, or having ended a worker. -/
def hits (bad : J → Prop) [DecidablePred bad] (s : State J A R) : Nat :=
  (s.pending.map (badIn bad)).sum + (s.queue.map (badIn bad)).sum + (s.workers.map (hit bad)).sum

theorem hits_start (bad : J → Prop) [DecidablePred bad] (p : Prog J A R) (W : Nat) (files : List J) :
    hits bad (start p W files) = files.countP (fun j => bad j) := by
  have h1 : (files.map (fun j => badIn bad (some j))).sum = files.countP (fun j => bad j) := by
    induction files with
    | nil => rfl
    | cons j l ih =>
      rw [List.map_cons, List.sum_cons, ih, List.countP_cons, Nat.add_comm]
      by_cases hb : bad j <;> simp [badIn, hb]
  have h2 : ((List.replicate W (none : Option J)).map (badIn bad)).sum = 0 := by simp [badIn]
  have h3 : ((List.replicate W (.idle p.init : WState J A)).map (hit bad)).sum = 0 := by simp [hit]
  simp only [hits, start, List.map_append, List.map_map, List.map_nil, List.sum_nil, List.sum_append, h2, h3, Nat.add_zero]
  exact h1

theorem hits_const {bad : J → Prop} [DecidablePred bad] {p : Prog J A R} {as : List Action} {s s' : State J A R}
    (ho : Obeys bad p as s) (h : exec p as s = some s') : hits bad s' = hits bad s := by
  refine obeys_invariant bad p (fun t => hits bad t = hits bad s) ?_ as s s' ho rfl h
  intro a t t' hok hI hs
  rw [← hI]
  rcases step_cases hs with ⟨x, rest, _, hp, rfl⟩ | ⟨i, b, j, q, _, h1, h2, rfl⟩ | ⟨i, b, q, _, h1, h2, rfl⟩ |
    ⟨i, b, j, rfl, h1, rfl⟩ | ⟨i, b, _, h1, rfl⟩ | ⟨i, w, rfl, h1, _, _, rfl⟩
  · simp only [hits, hp, List.map_append, List.sum_append, List.map_cons, List.map_nil, List.sum_cons, List.sum_nil]
    omega
  · have e := sum_map_set (hit bad) t.workers i _ (.busy b j) h1
    simp only [hits, h2, List.map_cons, List.sum_cons]
    simp only [hit, badIn] at e ⊢
    omega
  · have e := sum_map_set (hit bad) t.workers i _ (.stopping b) h1
    simp only [hits, h2, List.map_cons, List.sum_cons]
    simp only [hit, badIn] at e ⊢
    omega
  · have e := sum_map_set (hit bad) t.workers i _ (.idle (p.onJob b j).1) h1
    have hb : ¬ bad j := hok b j h1
    simp only [hits]
    simp only [hit, if_neg hb] at e ⊢
    omega
  · have e := sum_map_set (hit bad) t.workers i _ (.done b) h1
    simp only [hits]
    simp only [hit] at e ⊢
    omega
  · obtain ⟨b, j, h1', hb⟩ := hok
    rw [h1] at h1'
    cases h1'
    have e := sum_map_set (hit bad) t.workers i _ .crashed h1
    simp only [hits]
    simp only [hit, if_pos hb] at e ⊢
    omega

/-- Once a worker has got a stop marker, no file is left to be taken. -/
theorem stopped_no_jobs {p : Prog J A R} {as : List Action} {W : Nat} {files : List J} {s : State J A R}
    (h : exec p as (start p W files) = some s) :
    (∃ w ∈ s.workers, ∃ b, w = .stopping b ∨ w = .done b) → ∀ x ∈ s.queue ++ s.pending, x = none := by
  have key : ∀ t : State J A R, (t.queue ++ t.pending) <:+ (files.map some ++ List.replicate W none) → ∀ q,
      t.queue = none :: q → ∀ x ∈ q ++ t.pending, x = none := by
    intro t hsuf q hq x hx
    rw [hq, List.cons_append] at hsuf
    obtain ⟨pre, hpre⟩ := hsuf
    obtain ⟨as', h1, h2⟩ | ⟨bs', h1, h2⟩ := List.append_eq_append_iff.1 hpre
    · cases as' with
      | nil =>
        simp only [List.nil_append] at h2
        have hm : x ∈ List.replicate W (none : Option J) := by rw [← h2]; exact List.mem_cons_of_mem _ hx
        exact (List.mem_replicate.1 hm).2
      | cons y as' =>
        rw [List.cons_append] at h2
        injection h2 with h2 _
        have : (none : Option J) ∈ files.map some := by rw [h1, h2]; simp
        obtain ⟨_, _, hc⟩ := List.mem_map.1 this
        cases hc
    · have hm : x ∈ List.replicate W (none : Option J) := by
        rw [h2]; exact List.mem_append_right _ (List.mem_cons_of_mem _ hx)
      exact (List.mem_replicate.1 hm).2
  have hinv : ∀ as' (t t' : State J A R), (t.queue ++ t.pending) <:+ (files.map some ++ List.replicate W none) →
      ((∃ w ∈ t.workers, ∃ b, w = .stopping b ∨ w = .done b) → ∀ x ∈ t.queue ++ t.pending, x = none) →
      exec p as' t = some t' →
      ((∃ w ∈ t'.workers, ∃ b, w = .stopping b ∨ w = .done b) → ∀ x ∈ t'.queue ++ t'.pending, x = none) := by
    intro as' t t' hsuf hI he
    have := exec_invariant p (fun t => (t.queue ++ t.pending) <:+ (files.map some ++ List.replicate W none) ∧
      ((∃ w ∈ t.workers, ∃ b, w = .stopping b ∨ w = .done b) → ∀ x ∈ t.queue ++ t.pending, x = none)) (fun _ => True) ?_ as' t t'
      (fun _ _ => trivial) ⟨hsuf, hI⟩ he
    · exact this.2
    intro a t t' _ hI hs
    obtain ⟨hsuf, hI⟩ := hI
    have hs' : (t'.queue ++ t'.pending) <:+ (t.queue ++ t.pending) :=
      remaining_suffix (as := [a]) (p := p) (by simp [exec, hs])
    refine ⟨hs'.trans hsuf, ?_⟩
    rcases step_cases hs with ⟨x, rest, _, hp, rfl⟩ | ⟨i, b, j, q, _, h1, h2, rfl⟩ | ⟨i, b, q, _, h1, h2, rfl⟩ |
      ⟨i, b, j, _, h1, rfl⟩ | ⟨i, b, _, h1, rfl⟩ | ⟨i, w, _, h1, _, _, rfl⟩
    · intro hw y hy
      exact hI hw y (hs'.subset hy)
    · rintro ⟨w, hw, c, hc⟩ y hy
      rcases List.mem_or_eq_of_mem_set hw with hw | rfl
      · exact hI ⟨w, hw, c, hc⟩ y (hs'.subset hy)
      · rcases hc with hc | hc <;> cases hc
    · intro _
      exact key t hsuf q h2
    · rintro ⟨w, hw, c, hc⟩ y hy
      rcases List.mem_or_eq_of_mem_set hw with hw | rfl
      · exact hI ⟨w, hw, c, hc⟩ y (hs'.subset hy)
      · rcases hc with hc | hc <;> cases hc
    · intro _ y hy
      exact hI ⟨_, List.mem_iff_getElem?.2 ⟨i, h1⟩, b, Or.inl rfl⟩ y hy
    · rintro ⟨w', hw, c, hc⟩ y hy
      rcases List.mem_or_eq_of_mem_set hw with hw | rfl
      · exact hI ⟨w', hw, c, hc⟩ y (hs'.subset hy)
      · rcases hc with hc | hc <;> cases hc
  refine hinv as _ s (by simp [start]) ?_ h
  rintro ⟨w, hw, b, hb⟩
  simp only [start, List.mem_replicate] at hw
  rcases hb with rfl | rfl <;> cases hw.2

/-- Results of an accumulating program come from workers that ended. -/
theorem accumulate_results_le {a0 : A} {upd : A → J → A} {emit : A → List R} (h1 : ∀ a, (emit a).length ≤ 1)
    {as : List Action} {W : Nat} {files : List J} {s : State J A R}
    (h : exec (accumulate a0 upd emit) as (start (accumulate a0 upd emit) W files) = some s) :
    s.results.length ≤ (s.workers.map ended).sum := by
  refine exec_invariant (accumulate a0 upd emit) (fun t => t.results.length ≤ (t.workers.map ended).sum) (fun _ => True) ?_ as
    (start (accumulate a0 upd emit) W files) s (fun _ _ => trivial) ?_ h
  · intro a t t' _ hI hs
    rcases step_cases hs with ⟨x, rest, _, hp, rfl⟩ | ⟨i, b, j, q, _, g1, h2, rfl⟩ | ⟨i, b, q, _, g1, h2, rfl⟩ |
      ⟨i, b, j, rfl, g1, rfl⟩ | ⟨i, b, _, g1, rfl⟩ | ⟨i, w, rfl, g1, g2, _, rfl⟩
    · exact hI
    · have e := sum_map_set ended t.workers i _ (.busy b j) g1
      simp only [ended] at e ⊢
      omega
    · have e := sum_map_set ended t.workers i _ (.stopping b) g1
      simp only [ended] at e ⊢
      omega
    · have e := sum_map_set ended t.workers i _ (.idle (upd b j)) g1
      simp only [ended, accumulate, List.append_nil] at e ⊢
      omega
    · have e := sum_map_set ended t.workers i _ (.done b) g1
      have := h1 b
      simp only [ended, accumulate, List.length_append] at e ⊢
      omega
    · have e := sum_map_set ended t.workers i _ .crashed g1
      cases w with
      | done b => exact absurd rfl (g2 b)
      | idle b => simp only [ended] at e ⊢; omega
      | busy b j => simp only [ended] at e ⊢; omega
      | stopping b => simp only [ended] at e ⊢; omega
      | crashed => simp only [ended] at e ⊢; omega
  · simp [start]

/-- Each file that raises takes one worker with it, and with the worker all that it accumulated. -/
theorem fault_results_le {bad : J → Prop} [DecidablePred bad] {a0 : A} {upd : A → J → A} {emit : A → List R}
    (h1 : ∀ a, (emit a).length ≤ 1) {as : List Action} {W : Nat} {files : List J} {s : State J A R}
    (ho : Obeys bad (accumulate a0 upd emit) as (start (accumulate a0 upd emit) W files))
    (h : exec (accumulate a0 upd emit) as (start (accumulate a0 upd emit) W files) = some s) (hj : Joined s) :
    s.results.length ≤ W - files.countP (fun j => bad j) := by
  have hle := accumulate_results_le h1 h
  have hh := hits_const ho h
  rw [hits_start] at hh
  have hlen : s.workers.length = W := by
    have := workers_length h
    simpa [start] using this
  have hsum : ∀ l : List (WState J A), (∀ w ∈ l, (∃ a, w = .done a) ∨ w = .crashed) →
      (l.map ended).sum + (l.map (hit bad)).sum = l.length := by
    intro l
    induction l with
    | nil => intro _; rfl
    | cons w l ih =>
      intro hl
      have := ih (fun x hx => hl x (List.mem_cons_of_mem _ hx))
      rcases hl w List.mem_cons_self with ⟨a, rfl⟩ | rfl <;>
        simp only [List.map_cons, List.sum_cons, ended, hit, List.length_cons] <;> omega
  have hs := hsum s.workers hj.2
  by_cases hd : ∃ w ∈ s.workers, ∃ b, w = .stopping b ∨ w = .done b
  · have hq := stopped_no_jobs h hd
    have z : ∀ l : List (Option J), (∀ x ∈ l, x = none) → (l.map (badIn bad)).sum = 0 := by
      intro l hl
      refine List.sum_eq_zero ?_
      intro n hn
      obtain ⟨x, hx, rfl⟩ := List.mem_map.1 hn
      rw [hl x hx]
      rfl
    have zq := z s.queue (fun x hx => hq x (List.mem_append_left _ hx))
    have zp := z s.pending (fun x hx => hq x (List.mem_append_right _ hx))
    simp only [hits, zq, zp] at hh
    omega
  · have z : (s.workers.map ended).sum = 0 := by
      refine List.sum_eq_zero ?_
      intro n hn
      obtain ⟨w, hw, rfl⟩ := List.mem_map.1 hn
      rcases hj.2 w hw with ⟨a, rfl⟩ | rfl
      · exact absurd ⟨_, hw, a, Or.inr rfl⟩ hd
      · rfl
    omega

/-- The recorder obeys the same rule. -/
theorem obeys_img {bad : J → Prop} (a0 : A) (upd : A → J → A) (emit : A → List R) : ∀ (as : List Action)
    (t : State J (List J) (List J)), Obeys bad (accumulate a0 upd emit) as (img a0 upd emit t) → Obeys bad (recorder J) as t := by
  intro as
  induction as with
  | nil => intro t _; trivial
  | cons a as ih =>
    intro t ho
    refine ⟨?_, ?_⟩
    · have h1 := ho.1
      cases a with
      | produce => trivial
      | take i => trivial
      | work i =>
        intro b j hw
        refine h1 (b.foldl upd a0) j ?_
        simp [img, hw, imgWorker]
      | crash i =>
        obtain ⟨b, j, hw, hb⟩ := h1
        simp only [img, List.getElem?_map, Option.map_eq_some_iff] at hw
        obtain ⟨w, hw, he⟩ := hw
        cases w with
        | busy l k => injection he with _ he; subst he; exact ⟨l, k, hw, hb⟩
        | idle l => cases he
        | stopping l => cases he
        | done l => cases he
        | crashed => cases he
    · intro t' ht
      refine ih t' (ho.2 _ ?_)
      rw [step_img, ht]
      rfl

/-- What is put is the work on disjoint shares of the files that do not raise. -/
theorem fault_parts {bad : J → Prop} [DecidablePred bad] {a0 : A} {upd : A → J → A} {emit : A → List R} {as : List Action} {W : Nat}
    {files : List J} {s : State J A R} (ho : Obeys bad (accumulate a0 upd emit) as (start (accumulate a0 upd emit) W files))
    (h : exec (accumulate a0 upd emit) as (start (accumulate a0 upd emit) W files) = some s) :
    ∃ parts : List (List J), parts.flatten.Subperm (files.filter (fun j => ¬ bad j)) ∧
      s.results = parts.flatMap (fun l => emit (l.foldl upd a0)) := by
  have h0 : start (accumulate a0 upd emit) W files = img a0 upd emit (start (recorder J) W files) := by
    simp [start, img, accumulate, recorder, imgWorker]
  rw [h0] at ho
  have ho' := obeys_img a0 upd emit as _ ho
  rw [h0, exec_img] at h
  cases ht : exec (recorder J) as (start (recorder J) W files) with
  | none => rw [ht] at h; cases h
  | some t =>
    rw [ht] at h
    simp only [Option.map_some, Option.some.injEq] at h
    subst h
    refine ⟨t.results, ?_, rfl⟩
    have hgood : (∀ w ∈ t.workers, ∀ l, (w = .idle l ∨ (∃ j, w = .busy l j) ∨ w = .stopping l) → ∀ j ∈ l, ¬ bad j) ∧
        ∀ l ∈ t.results, ∀ j ∈ l, ¬ bad j := by
      refine obeys_invariant bad (recorder J) (fun t => (∀ w ∈ t.workers, ∀ l, (w = .idle l ∨ (∃ j, w = .busy l j) ∨ w = .stopping l) →
        ∀ j ∈ l, ¬ bad j) ∧ ∀ l ∈ t.results, ∀ j ∈ l, ¬ bad j) ?_ as _ t ho' ?_ ht
      · intro a t t' hok ⟨hI, hR⟩ hs
        rcases step_cases hs with ⟨x, rest, _, hp, rfl⟩ | ⟨i, b, j, q, _, h1, h2, rfl⟩ | ⟨i, b, q, _, h1, h2, rfl⟩ |
          ⟨i, b, j, rfl, h1, rfl⟩ | ⟨i, b, _, h1, rfl⟩ | ⟨i, w, rfl, h1, _, _, rfl⟩
        · exact ⟨hI, hR⟩
        · have hb := hI _ (List.mem_iff_getElem?.2 ⟨i, h1⟩) b (Or.inl rfl)
          refine ⟨?_, hR⟩
          intro w hw l hl
          rcases List.mem_or_eq_of_mem_set hw with hw | rfl
          · exact hI w hw l hl
          · rcases hl with hl | ⟨k, hl⟩ | hl <;> cases hl
            exact hb
        · have hb := hI _ (List.mem_iff_getElem?.2 ⟨i, h1⟩) b (Or.inl rfl)
          refine ⟨?_, hR⟩
          intro w hw l hl
          rcases List.mem_or_eq_of_mem_set hw with hw | rfl
          · exact hI w hw l hl
          · rcases hl with hl | ⟨k, hl⟩ | hl <;> cases hl
            exact hb
        · have hb := hI _ (List.mem_iff_getElem?.2 ⟨i, h1⟩) b (Or.inr (Or.inl ⟨j, rfl⟩))
          have hj : ¬ bad j := hok b j h1
          refine ⟨?_, by simpa [recorder, accumulate] using hR⟩
          intro w hw l hl
          rcases List.mem_or_eq_of_mem_set hw with hw | rfl
          · exact hI w hw l hl
          · rcases hl with hl | ⟨k, hl⟩ | hl <;> cases hl
            intro k hk
            rcases List.mem_append.1 hk with hk | hk
            · exact hb k hk
            · rw [List.mem_singleton.1 hk]; exact hj
        · have hb := hI _ (List.mem_iff_getElem?.2 ⟨i, h1⟩) b (Or.inr (Or.inr rfl))
          refine ⟨?_, ?_⟩
          · intro w hw l hl
            rcases List.mem_or_eq_of_mem_set hw with hw | rfl
            · exact hI w hw l hl
            · rcases hl with hl | ⟨k, hl⟩ | hl <;> cases hl
          · intro l hl
            rcases List.mem_append.1 hl with hl | hl
            · exact hR l hl
            · rw [List.mem_singleton.1 hl]; exact hb
        · refine ⟨?_, hR⟩
          intro w' hw l hl
          rcases List.mem_or_eq_of_mem_set hw with hw | rfl
          · exact hI w' hw l hl
          · rcases hl with hl | ⟨k, hl⟩ | hl <;> cases hl
      · refine ⟨?_, by simp [start]⟩
        intro w hw l hl
        simp only [start, List.mem_replicate] at hw
        rcases hl with hl | ⟨k, hl⟩ | hl <;> rw [hw.2] at hl <;> cases hl
        intro j hj
        cases hj
    have hsub : t.results.flatten.Subperm files := by
      obtain ⟨parts, hp, he⟩ := accumulate_le (a0 := ([] : List J)) (upd := fun l j => l ++ [j]) (emit := fun l => [l]) ht
      have hfold : ∀ (l acc : List J), l.foldl (fun l j => l ++ [j]) acc = acc ++ l := by
        intro l
        induction l with
        | nil => intro acc; simp
        | cons j l ih => intro acc; rw [List.foldl_cons, ih]; simp
      have : t.results = parts := by
        rw [he]
        clear hp he
        induction parts with
        | nil => rfl
        | cons l ps ih => rw [List.flatMap_cons, ih, hfold]; simp
      rw [this]; exact hp
    have hf : t.results.flatten.filter (fun j => ¬ bad j) = t.results.flatten := by
      refine List.filter_eq_self.2 ?_
      intro j hj
      obtain ⟨l, hl, hj⟩ := List.mem_flatten.1 hj
      simpa using hgood.2 l hl j hj
    rw [← hf]
    exact hsub.filter _

end Verif.Engine
