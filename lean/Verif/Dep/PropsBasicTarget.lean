import Verif.Dep.PropsBasic
import Verif.Matrix.Lemmas

set_option linter.unusedSectionVars false

/-!
# C151: matching from the target (the older classes)
-/

namespace Verif.Dep.Basic
open Verif.Py Verif.Dep

/-! ## Specification -/

/-- `b` comes directly after `a`. -/
def Next (l : List Nat) (a b : Nat) : Prop := ∃ p q, l = p ++ a :: b :: q

/-- The template is a line with the nodes `l` in this order: neighbours in the list are joined by one edge, in one direction or the other;
there are no further edges and nodes; no node has two heads. -/
structure LineOf (f : LGraph) (l : List Nat) : Prop where
  nodup : l.Nodup
  nodesWF : f.nodes.WF
  edgesWF : f.edges.WF
  all : ∀ x, x ∈ f.nodes.keys ↔ x ∈ l
  edges : ∀ u v, HasEdge f u v → Next l u v ∨ Next l v u
  joined : ∀ u v, Next l u v → HasEdge f u v ∧ ¬ HasEdge f v u ∨ HasEdge f v u ∧ ¬ HasEdge f u v
  oneHead : ∀ u u' v, HasEdge f u v → HasEdge f u' v → u = u'

/-! ## The walks -/

section
variable (rx : String → String → Bool) (s f : LGraph)

/-- Does the template go up from `c` to `t`? -/
def up (c t : Nat) : Bool := decide ((t, c) ∈ f.edges.keys)

def es (cs c t x : Nat) : Nat × Nat := if up f c t then (x, cs) else (cs, x)
def et (c t : Nat) : Nat × Nat := if up f c t then (t, c) else (c, t)

/-- Do the word `x` and its edge match? -/
def okB (cs c t x : Nat) : Bool :=
  match s.edges.get? (es f cs c t x), s.nodes.get? x, f.edges.get? (et f c t), f.nodes.get? t with
  | some r, some (some l), some re, some (some q) => rx re r && rx q l
  | _, _, _, _ => false

def around (prevs : Option Nat) (cs c t : Nat) : List Nat :=
  (if up f c t then s.pred cs else s.succ cs).filter (fun v => decide (some v ≠ prevs))

def paths (prevs : Option Nat) (cs c : Nat) : List Nat → List (List Nat)
  | [] => [[]]
  | t :: ts => ((around s f prevs cs c t).filter (okB rx s f cs c t)).flatMap (fun x => (paths (some cs) x t ts).map (x :: ·))

def ext (w : Walk) (cs c : Nat) : List Nat → List Nat → Walk
  | t :: ts, x :: xs => ext ⟨(x, t) :: w.nodes, ((s.edges.get? (es f cs c t x)).getD "", et f c t) :: w.edges⟩ x t ts xs
  | _, _ => w

/-- The part of a line from `c` on; `Q` must hold where it goes up. -/
def Line (Q : Prop) : Option Nat → Nat → List Nat → Prop
  | prevt, c, [] => (f.pred c).filter (fun v => decide (some v ≠ prevt)) = [] ∧ (f.succ c).filter (fun v => decide (some v ≠ prevt)) = []
  | prevt, c, t :: ts =>
    ((f.pred c).filter (fun v => decide (some v ≠ prevt)) = [t] ∧ (f.succ c).filter (fun v => decide (some v ≠ prevt)) = [] ∧ Q ∨
      (f.pred c).filter (fun v => decide (some v ≠ prevt)) = [] ∧ (f.succ c).filter (fun v => decide (some v ≠ prevt)) = [t] ∧ ¬ HasEdge f t c) ∧
    Line Q (some c) t ts

end

variable {rx : String → String → Bool} {s f : LGraph}

theorem mapM_flat {α β γ : Type} (p : α → Bool) (h : α → List β) (k : β → Except Err γ) (l : List α) :
    (l.mapM (fun x => if p x then (h x).mapM k else .ok [])).bind (fun ps => .ok ps.flatten) = ((l.filter p).flatMap h).mapM k := by
  induction l with
  | nil => rfl
  | cons a l ih =>
    rw [List.mapM_cons, List.filter_cons]
    cases hp : p a with
    | false =>
      simp only [Bool.false_eq_true, if_false]
      rw [← ih]
      simp only [bind, Except.bind]
      cases l.mapM (fun x => if p x then (h x).mapM k else .ok []) <;> rfl
    | true =>
      simp only [if_true]
      rw [List.flatMap_cons, List.mapM_append, ← ih]
      simp only [bind, Except.bind]
      cases (h a).mapM k with
      | error e => rfl
      | ok y => cases l.mapM (fun x => if p x then (h x).mapM k else .ok []) <;> rfl

theorem mem_of_ofPairs {κ ν : Type} [DecidableEq κ] (ps : List (κ × ν)) {k : κ} {v : ν} (h : Dict.get? (Dict.ofPairs ps) k = some v) :
    (k, v) ∈ ps := by
  induction ps using List.reverseRecOn with
  | nil => cases h
  | append_singleton ps e ih =>
    obtain ⟨a, b⟩ := e
    rw [get?_ofPairs_append] at h
    split at h
    · rename_i e; subst e; cases h; simp
    · exact List.mem_append_left _ (ih h)

theorem moves_eq {Q : Prop} {prevs prevt : Option Nat} {cs c t : Nat} {ts : List Nat} (hl : Line f Q prevt c (t :: ts)) :
    moves s f cs c prevs prevt = (around s f prevs cs c t).map (fun x => ⟨x, t, es f cs c t x, et f c t⟩) := by
  unfold moves around
  obtain ⟨h | h, _⟩ := hl
  · have hu : up f c t = true := by
      have : t ∈ (f.pred c).filter (fun v => decide (some v ≠ prevt)) := by rw [h.1]; simp
      exact decide_eq_true (mem_pred.1 (List.mem_filter.1 this).1)
    rw [h.1, h.2.1, if_pos hu]
    simp [es, et, hu]
  · have hu : up f c t = false := decide_eq_false h.2.2
    rw [h.1, h.2.1, hu]
    simp [es, et, hu]

theorem around_edge {prevs : Option Nat} {cs c t x : Nat} (h : x ∈ around s f prevs cs c t) :
    ∃ r, s.edges.get? (es f cs c t x) = some r := by
  unfold around at h
  have h := (List.mem_filter.1 h).1
  unfold es
  split at h <;> rename_i hu
  · rw [if_pos hu]
    exact Option.isSome_iff_exists.1 ((Dict.get?_isSome_iff _ _).2 (mem_pred.1 h))
  · rw [if_neg hu]
    exact Option.isSome_iff_exists.1 ((Dict.get?_isSome_iff _ _).2 (mem_succ.1 h))

theorem line_edge {Q : Prop} {prevt : Option Nat} {c t : Nat} {ts : List Nat} (hl : Line f Q prevt c (t :: ts)) :
    ∃ re, f.edges.get? (et f c t) = some re := by
  obtain ⟨h | h, _⟩ := hl
  · have : t ∈ (f.pred c).filter (fun v => decide (some v ≠ prevt)) := by rw [h.1]; simp
    have hm := mem_pred.1 (List.mem_filter.1 this).1
    have hu : up f c t = true := decide_eq_true hm
    unfold et
    rw [if_pos hu]
    exact Option.isSome_iff_exists.1 ((Dict.get?_isSome_iff _ _).2 hm)
  · have hu : up f c t = false := decide_eq_false h.2.2
    have : t ∈ (f.succ c).filter (fun v => decide (some v ≠ prevt)) := by rw [h.2.1]; simp
    have hm := mem_succ.1 (List.mem_filter.1 this).1
    unfold et
    rw [hu]
    exact Option.isSome_iff_exists.1 ((Dict.get?_isSome_iff _ _).2 hm)

theorem around_label (W : Worded s) {prevs prevt : Option Nat} {cs c t x : Nat} {ts : List Nat}
    (hl : Line f (∀ v ∈ s.nodes.keys, ∃ l, s.nodes.get? v = some (some l)) prevt c (t :: ts)) (h : x ∈ around s f prevs cs c t) :
    ∃ l, s.nodes.get? x = some (some l) := by
  unfold around at h
  have h := (List.mem_filter.1 h).1
  obtain ⟨hh | hh, _⟩ := hl
  · have : t ∈ (f.pred c).filter (fun v => decide (some v ≠ prevt)) := by rw [hh.1]; simp
    have hu : up f c t = true := decide_eq_true (mem_pred.1 (List.mem_filter.1 this).1)
    rw [if_pos hu] at h
    exact hh.2.2 x (W.ends _ _ (mem_pred.1 h)).1
  · have hu : up f c t = false := decide_eq_false hh.2.2
    rw [hu] at h
    exact W.labels _ _ (mem_succ.1 h)

theorem matchSub_eq (W : Worded s) (L : Labelled f) (ends : ∀ u v, HasEdge f u v → u ∈ f.nodes.keys ∧ v ∈ f.nodes.keys) (ts : List Nat) :
    ∀ (prevs prevt : Option Nat) (cs c : Nat) (w : Walk) (rest : List (Nat × Nat)),
      Line f (∀ v ∈ s.nodes.keys, ∃ l, s.nodes.get? v = some (some l)) prevt c ts → w.nodes = (cs, c) :: rest →
      rest.head?.map Prod.fst = prevs → rest.head?.map Prod.snd = prevt → w.nodes.length + ts.length = f.nodes.length →
      matchSub rx s f (ts.length + 1) w = (paths rx s f prevs cs c ts).mapM (fun xs => recordWalk s (ext s f w cs c ts xs)) := by
  induction ts with
  | nil =>
    intro prevs prevt cs c w rest hl hw h1 h2 hn
    unfold matchSub
    rw [if_pos (by simpa using hn)]
    show _ = List.mapM _ [[]]
    rw [List.mapM_cons, List.mapM_nil]
    rfl
  | cons t ts ih =>
    intro prevs prevt cs c w rest hl hw h1 h2 hn
    have hl' := hl.2
    obtain ⟨re, hre⟩ := line_edge hl
    have ht : t ∈ f.nodes.keys := by
      have hm : et f c t ∈ f.edges.keys := (Dict.get?_isSome_iff _ _).1 (by rw [hre]; rfl)
      unfold et at hm
      split at hm
      · exact (ends _ _ hm).1
      · exact (ends _ _ hm).2
    obtain ⟨q, hq⟩ := L t ht
    rw [List.length_cons]
    unfold matchSub
    rw [if_neg (by rw [List.length_cons] at hn; omega), hw]
    simp only [h1, h2]
    rw [moves_eq hl, mapM_map']
    have e : ∀ x ∈ around s f prevs cs c t,
        (do
          let r ← stepOk rx s f x t (es f cs c t x) (et f c t)
          match r with
          | none => .ok []
          | some srel => matchSub rx s f (ts.length + 1) ⟨(x, t) :: (cs, c) :: rest, (srel, et f c t) :: w.edges⟩) =
        if okB rx s f cs c t x then ((paths rx s f (some cs) x t ts).map (x :: ·)).mapM (fun xs => recordWalk s (ext s f w cs c (t :: ts) xs))
        else .ok [] := by
      intro x hx
      obtain ⟨r, hr⟩ := around_edge hx
      obtain ⟨l, hlx⟩ := around_label W hl hx
      have hst : stepOk rx s f x t (es f cs c t x) (et f c t) = .ok (if rx re r && rx q l then some r else none) := by
        unfold stepOk rel label
        rw [hr, hlx, hre, hq]
        rfl
      have hok : okB rx s f cs c t x = (rx re r && rx q l) := by
        unfold okB
        rw [hr, hlx, hre, hq]
      rw [hst, hok]
      simp only [bind, Except.bind]
      cases hb : (rx re r && rx q l) with
      | false => rfl
      | true =>
        simp only [if_true]
        rw [ih (some cs) (some c) x t _ ((cs, c) :: rest) hl' rfl rfl rfl
          (by rw [hw] at hn; simp only [List.length_cons] at hn ⊢; omega), mapM_map']
        refine mapM_congr _ _ _ ?_
        intro xs _
        simp only [ext, hr, hw, Option.getD_some]
    exact (congrArg (fun z => Except.bind z (fun parts => .ok parts.flatten)) (mapM_congr _ _ _ e)).trans (mapM_flat _ _ _ _)

/-! ## The words on a walk -/

theorem mem_step {prevs : Option Nat} {cs c t x : Nat} :
    x ∈ (around s f prevs cs c t).filter (okB rx s f cs c t) ↔ some x ≠ prevs ∧ ∃ r l re q, s.edges.get? (es f cs c t x) = some r ∧
      s.nodes.get? x = some (some l) ∧ f.edges.get? (et f c t) = some re ∧ f.nodes.get? t = some (some q) ∧ rx re r = true ∧ rx q l = true := by
  constructor
  · intro h
    obtain ⟨h1, h2⟩ := List.mem_filter.1 h
    refine ⟨by simpa using (List.mem_filter.1 h1).2, ?_⟩
    unfold okB at h2
    split at h2
    · rename_i r l re q e1 e2 e3 e4
      simp only [Bool.and_eq_true] at h2
      exact ⟨r, l, re, q, e1, e2, e3, e4, h2.1, h2.2⟩
    · cases h2
  · rintro ⟨h1, r, l, re, q, e1, e2, e3, e4, h3, h4⟩
    refine List.mem_filter.2 ⟨List.mem_filter.2 ⟨?_, decide_eq_true h1⟩, ?_⟩
    · have hm : es f cs c t x ∈ s.edges.keys := (Dict.get?_isSome_iff _ _).1 (by rw [e1]; rfl)
      unfold es at hm
      split <;> rename_i hu
      · rw [if_pos hu] at hm; exact mem_pred.2 hm
      · rw [if_neg hu] at hm; exact mem_succ.2 hm
    · unfold okB
      rw [e1, e2, e3, e4]
      simp [h3, h4]

theorem mem_paths_cons {prevs : Option Nat} {cs c t : Nat} {ts xs : List Nat} :
    xs ∈ paths rx s f prevs cs c (t :: ts) ↔ ∃ x xs', xs = x :: xs' ∧ x ∈ (around s f prevs cs c t).filter (okB rx s f cs c t) ∧
      xs' ∈ paths rx s f (some cs) x t ts := by
  show xs ∈ List.flatMap _ _ ↔ _
  rw [List.mem_flatMap]
  constructor
  · rintro ⟨x, hx, h⟩
    obtain ⟨xs', h', rfl⟩ := List.mem_map.1 h
    exact ⟨x, xs', rfl, hx, h'⟩
  · rintro ⟨x, xs', rfl, hx, h⟩
    exact ⟨x, hx, List.mem_map_of_mem h⟩

theorem paths_length (ts : List Nat) : ∀ (prevs : Option Nat) (cs c : Nat) (xs : List Nat), xs ∈ paths rx s f prevs cs c ts →
    xs.length = ts.length := by
  induction ts with
  | nil => intro prevs cs c xs h; cases List.mem_singleton.1 h; rfl
  | cons t ts ih =>
    intro prevs cs c xs h
    obtain ⟨x, xs', rfl, _, h'⟩ := mem_paths_cons.1 h
    rw [List.length_cons, List.length_cons, ih _ _ _ _ h']

theorem paths_nodup (W : Worded s) (ts : List Nat) : ∀ (prevs : Option Nat) (cs c : Nat), (paths rx s f prevs cs c ts).Nodup := by
  induction ts with
  | nil => intro prevs cs c; exact List.nodup_singleton _
  | cons t ts ih =>
    intro prevs cs c
    refine List.nodup_flatMap.2 ⟨?_, ?_⟩
    · intro x _
      exact (ih _ _ _).map (fun a b h => (List.cons.inj h).2)
    · have hnd : (around s f prevs cs c t).Nodup := by
        unfold around
        refine List.Nodup.filter _ ?_
        split
        · exact pred_nodup W.edgesWF _
        · exact succ_nodup W.edgesWF _
      refine (hnd.filter _).imp ?_
      intro a b hab
      simp only [Function.onFun]
      intro y h1 h2
      obtain ⟨_, _, rfl⟩ := List.mem_map.1 h1
      obtain ⟨_, _, h3⟩ := List.mem_map.1 h2
      exact hab (List.cons.inj h3).1.symm

/-- The neighbours of `c` on a line. -/
theorem line_nbr {Q : Prop} {prevt : Option Nat} {c : Nat} {ts : List Nat} (hl : Line f Q prevt c ts) {b : Nat}
    (h : HasEdge f b c ∨ HasEdge f c b) : some b = prevt ∨ ts.head? = some b := by
  by_cases hp : some b = prevt
  · exact .inl hp
  right
  cases ts with
  | nil =>
    exfalso
    rcases h with h | h
    · have : b ∈ (f.pred c).filter (fun v => decide (some v ≠ prevt)) := List.mem_filter.2 ⟨mem_pred.2 h, decide_eq_true hp⟩
      rw [hl.1] at this
      cases this
    · have : b ∈ (f.succ c).filter (fun v => decide (some v ≠ prevt)) := List.mem_filter.2 ⟨mem_succ.2 h, decide_eq_true hp⟩
      rw [hl.2] at this
      cases this
  | cons t ts =>
    have key : b = t := by
      rcases h with h | h
      · have : b ∈ (f.pred c).filter (fun v => decide (some v ≠ prevt)) := List.mem_filter.2 ⟨mem_pred.2 h, decide_eq_true hp⟩
        rcases hl.1 with h' | h'
        · rw [h'.1] at this; simpa using this
        · rw [h'.1] at this; cases this
      · have : b ∈ (f.succ c).filter (fun v => decide (some v ≠ prevt)) := List.mem_filter.2 ⟨mem_succ.2 h, decide_eq_true hp⟩
        rcases hl.1 with h' | h'
        · rw [h'.2.1] at this; cases this
        · rw [h'.2.1] at this; simpa using this
    rw [key]; rfl

theorem line_step {Q : Prop} {prevt : Option Nat} {c t : Nat} {ts : List Nat} (hl : Line f Q prevt c (t :: ts)) :
    (up f c t = true ∧ HasEdge f t c ∨ up f c t = false ∧ HasEdge f c t) ∧ some t ≠ prevt := by
  rcases hl.1 with h | h
  · have : t ∈ (f.pred c).filter (fun v => decide (some v ≠ prevt)) := by rw [h.1]; simp
    obtain ⟨h1, h2⟩ := List.mem_filter.1 this
    exact ⟨.inl ⟨decide_eq_true (mem_pred.1 h1), mem_pred.1 h1⟩, of_decide_eq_true h2⟩
  · have : t ∈ (f.succ c).filter (fun v => decide (some v ≠ prevt)) := by rw [h.2.1]; simp
    obtain ⟨h1, h2⟩ := List.mem_filter.1 this
    exact ⟨.inr ⟨decide_eq_false h.2.2, mem_succ.1 h1⟩, of_decide_eq_true h2⟩

/-- A match is found by a walk. -/
theorem paths_of_fits (asym : ∀ u v, HasEdge s u v → ¬ HasEdge s v u) (L : Labelled f)
    (ends : ∀ u v, HasEdge f u v → u ∈ f.nodes.keys ∧ v ∈ f.nodes.keys) (oneHead : ∀ u u' v, HasEdge f u v → HasEdge f u' v → u = u')
    {φ : Nat → Option Nat} (F : LFits rx s f φ) {Q : Prop} (ts : List Nat) : ∀ (prevs prevt : Option Nat) (cs c : Nat),
      Line f Q prevt c ts → φ c = some cs → (∀ p, prevt = some p → HasEdge f p c ∨ HasEdge f c p) → prevs = prevt.bind φ →
      ∃ xs, xs ∈ paths rx s f prevs cs c ts ∧ List.Forall₂ (fun t x => φ t = some x) ts xs := by
  induction ts with
  | nil => intro prevs prevt cs c _ _ _ _; exact ⟨[], List.mem_singleton.2 rfl, .nil⟩
  | cons t ts ih =>
    intro prevs prevt cs c hl hc hadj hprev
    obtain ⟨hd, htp⟩ := line_step hl
    have htk : t ∈ f.nodes.keys := by
      rcases hd with h | h
      · exact (ends _ _ h.2).1
      · exact (ends _ _ h.2).2
    obtain ⟨x, hx⟩ := Option.isSome_iff_exists.1 ((F.dom t).2 htk)
    obtain ⟨q, hq⟩ := L t htk
    obtain ⟨l, hlx, hrl⟩ := F.node t x q hx hq
    obtain ⟨re, hre⟩ := line_edge hl
    obtain ⟨xs, hxs, hfa⟩ := ih (some cs) (some c) x t hl.2 hx
      (by rintro p ⟨⟩; exact hd.elim (fun h => .inr h.2) (fun h => .inl h.2)) (by simp [hc])
    have hedge : ∃ r, s.edges.get? (es f cs c t x) = some r ∧ rx re r = true := by
      rcases hd with h | h
      · unfold et at hre
        rw [if_pos h.1] at hre
        unfold es
        rw [if_pos h.1]
        exact F.edge t c x cs re hre hx hc
      · unfold et at hre
        rw [h.1] at hre
        unfold es
        rw [h.1]
        exact F.edge c t cs x re hre hc hx
    obtain ⟨r, hr, hrr⟩ := hedge
    refine ⟨x :: xs, mem_paths_cons.2 ⟨x, xs, rfl, mem_step.2 ⟨?_, r, l, re, q, hr, hlx, hre, hq, hrr, hrl⟩, hxs⟩, .cons hx hfa⟩
    -- the word is not the previous one
    intro hxp
    have hE : es f cs c t x ∈ s.edges.keys := (Dict.get?_isSome_iff _ _).1 (by rw [hr]; rfl)
    rw [hprev] at hxp
    cases prevt with
    | none => cases hxp
    | some p =>
      have hpx : φ p = some x := hxp.symm
      have hne : t ≠ p := fun h => htp (by rw [h])
      have hsE : ∀ a b y z, HasEdge f a b → φ a = some y → φ b = some z → HasEdge s y z := by
        intro a b y z hab ha hb
        obtain ⟨re', hre'⟩ := Option.isSome_iff_exists.1 ((Dict.get?_isSome_iff f.edges (a, b)).2 hab)
        obtain ⟨r', hr', _⟩ := F.edge a b y z re' hre' ha hb
        exact (Dict.get?_isSome_iff _ _).1 (by rw [hr']; rfl)
      rcases hd with h | h
      · rcases hadj p rfl with h' | h'
        · exact hne (oneHead _ _ _ h.2 h')
        · exact asym _ _ (hsE _ _ _ _ h.2 hx hc) (hsE _ _ _ _ h' hc hpx)
      · rcases hadj p rfl with h' | h'
        · exact asym _ _ (hsE _ _ _ _ h.2 hc hx) (hsE _ _ _ _ h' hpx hc)
        · exact hne (F.siblings c t p x h.2 h' hx hpx)

/-- What a walk is: words whose labels match, edges whose relations match, and no word twice in a row over one word. -/
theorem fits_of_paths {φ : Nat → Option Nat} {Q : Prop} (ts : List Nat) : ∀ (prevs prevt : Option Nat) (cs c : Nat) (xs : List Nat),
      Line f Q prevt c ts → (c :: ts).Nodup → (∀ p, prevt = some p → p ∉ c :: ts) → φ c = some cs → (∀ p, prevt = some p → φ p = prevs) →
      xs ∈ paths rx s f prevs cs c ts → List.Forall₂ (fun t x => φ t = some x) ts xs →
      (∀ t ∈ ts, ∀ y re, φ t = some y → f.nodes.get? t = some (some re) → ∃ l, s.nodes.get? y = some (some l) ∧ rx re l = true) ∧
      (∀ a b y z re, a ∈ c :: ts → b ∈ c :: ts → f.edges.get? (a, b) = some re → φ a = some y → φ b = some z →
        ∃ r, s.edges.get? (y, z) = some r ∧ rx re r = true) ∧
      (∀ a b d y, a ∈ c :: ts → HasEdge f a b → HasEdge f a d → φ b = some y → φ d = some y → b = d) := by
  induction ts with
  | nil =>
    intro prevs prevt cs c xs hl hnd hpn hc hp _ _
    refine ⟨by simp, ?_, ?_⟩
    · intro a b y z re ha hb hab _ _
      have ha : a = c := by simpa using ha
      have hb : b = c := by simpa using hb
      subst ha; subst hb
      have hE : HasEdge f b b := (Dict.get?_isSome_iff _ _).1 (by rw [hab]; rfl)
      rcases line_nbr hl (.inl hE) with h | h
      · exact absurd (by simp) (hpn b h.symm)
      · cases h
    · intro a b d y ha hb hd _ _
      have ha : a = c := by simpa using ha
      subst ha
      rcases line_nbr hl (.inr hb) with h | h
      · rcases line_nbr hl (.inr hd) with h' | h'
        · exact Option.some.inj (h.trans h'.symm)
        · cases h'
      · cases h
  | cons t ts ih =>
    intro prevs prevt cs c xs hl hnd hpn hc hp hxs hfa
    obtain ⟨x, xs', rfl, hx, hxs'⟩ := mem_paths_cons.1 hxs
    obtain ⟨hxp, r, l, re, q, hr, hlx, hre, hq, hrr, hrl⟩ := mem_step.1 hx
    obtain ⟨hφt, hfa'⟩ := List.forall₂_cons.1 hfa
    obtain ⟨hd, htp⟩ := line_step hl
    obtain ⟨i1, i2, i3⟩ := ih (some cs) (some c) x t xs' hl.2 (List.nodup_cons.1 hnd).2
      (by rintro p ⟨⟩; exact (List.nodup_cons.1 hnd).1) hφt (by rintro p ⟨⟩; exact hc) hxs' hfa'
    have hnbr : ∀ b, (HasEdge f b c ∨ HasEdge f c b) → b ∈ c :: t :: ts → b = t := by
      intro b hb hm
      rcases line_nbr hl hb with h | h
      · exact absurd hm (hpn b h.symm)
      · exact (Option.some.inj h).symm
    refine ⟨?_, ?_, ?_⟩
    · intro t' ht' y re' hy hre'
      rcases List.mem_cons.1 ht' with h | h
      · subst h
        rw [hφt] at hy; cases hy
        rw [hq] at hre'; cases hre'
        exact ⟨l, hlx, hrl⟩
      · exact i1 t' h y re' hy hre'
    · intro a b y z re' ha hb hab hy hz
      have hE : HasEdge f a b := (Dict.get?_isSome_iff _ _).1 (by rw [hab]; rfl)
      rcases List.mem_cons.1 ha with h | h
      · subst h
        have hbt := hnbr b (.inr hE) hb
        subst hbt
        rw [hc] at hy; cases hy
        rw [hφt] at hz; cases hz
        rcases hd with hd | hd
        · -- both directions: cannot be, the line has one edge there
          rcases hl.1 with h' | h'
          · have : b ∈ (f.succ a).filter (fun v => decide (some v ≠ prevt)) :=
              List.mem_filter.2 ⟨mem_succ.2 hE, decide_eq_true htp⟩
            rw [h'.2.1] at this; cases this
          · exact absurd hd.2 h'.2.2
        · unfold et at hre; unfold es at hr
          rw [hd.1] at hre hr
          have hre2 : f.edges.get? (a, b) = some re := hre
          rw [hab] at hre2; cases hre2
          exact ⟨r, hr, hrr⟩
      · rcases List.mem_cons.1 hb with h' | h'
        · subst h'
          have hat := hnbr a (.inl hE) ha
          subst hat
          rw [hc] at hz; cases hz
          rw [hφt] at hy; cases hy
          have hu : up f b a = true := decide_eq_true hE
          unfold et at hre; unfold es at hr
          rw [if_pos hu] at hre hr
          rw [hab] at hre; cases hre
          exact ⟨r, hr, hrr⟩
        · exact i2 a b y z re' h h' hab hy hz
    · intro a b d y ha hb hd' hyb hyd
      rcases List.mem_cons.1 ha with h | h
      · subst h
        rcases line_nbr hl (.inr hb) with h1 | h1
        · rcases line_nbr hl (.inr hd') with h2 | h2
          · exact Option.some.inj (h1.trans h2.symm)
          · cases h2
            rw [hφt] at hyd
            exact absurd (by rw [← hp b h1.symm, hyb, hyd]) hxp
        · cases h1
          rcases line_nbr hl (.inr hd') with h2 | h2
          · rw [hφt] at hyb
            exact absurd (by rw [← hp d h2.symm, hyb, hyd]) hxp
          · cases h2; rfl
      · exact i3 a b d y h hb hd' hyb hyd

/-! ## Lines -/

theorem next_before {pre ts : List Nat} {a c : Nat} (hnd : (pre ++ c :: ts).Nodup) (h : Next (pre ++ c :: ts) a c) : pre.getLast? = some a := by
  obtain ⟨p, q, e⟩ := h
  have e' : (p ++ [a]) ++ c :: q = pre ++ c :: ts := by simp [e]
  have hn1 : c ∉ pre := fun hm => (List.nodup_append.1 hnd).2.2 c hm c (by simp) rfl
  have hn2 : c ∉ ts := (List.nodup_cons.1 (List.nodup_append.1 hnd).2.1).1
  have := ((List.append_cons_inj_of_notMem hn1 hn2).1 e'.symm).1
  rw [this]
  simp

theorem next_after {pre ts : List Nat} {b c : Nat} (hnd : (pre ++ c :: ts).Nodup) (h : Next (pre ++ c :: ts) c b) : ts.head? = some b := by
  obtain ⟨p, q, e⟩ := h
  have hn1 : c ∉ pre := fun hm => (List.nodup_append.1 hnd).2.2 c hm c (by simp) rfl
  have hn2 : c ∉ ts := (List.nodup_cons.1 (List.nodup_append.1 hnd).2.1).1
  have := ((List.append_cons_inj_of_notMem hn1 hn2).1 e).2.2
  rw [this]
  rfl

theorem singleton_of {l : List Nat} {t : Nat} (hnd : l.Nodup) (h : ∀ x, x ∈ l ↔ x = t) : l = [t] := by
  refine List.perm_singleton.1 ((List.perm_ext_iff_of_nodup hnd (List.nodup_singleton _)).2 ?_)
  intro x
  rw [h]
  simp

theorem line_of {Q : Prop} {l : List Nat} (P : LineOf f l) (ts : List Nat) : ∀ (pre : List Nat) (c : Nat), l = pre ++ c :: ts →
    (Q ∨ (pre = [] → ∀ u, ¬ HasEdge f u c) ∧ ∀ p, pre.getLast? = some p → HasEdge f p c) → Line f Q pre.getLast? c ts := by
  induction ts with
  | nil =>
    intro pre c e _
    have hnd := P.nodup
    rw [e] at hnd
    refine ⟨List.eq_nil_iff_forall_not_mem.2 ?_, List.eq_nil_iff_forall_not_mem.2 ?_⟩
    · intro u hu
      obtain ⟨h1, h2⟩ := List.mem_filter.1 hu
      have h2 : some u ≠ pre.getLast? := of_decide_eq_true h2
      rcases P.edges u c (mem_pred.1 h1) with h | h <;> rw [e] at h
      · exact h2 (next_before hnd h).symm
      · cases next_after hnd h
    · intro u hu
      obtain ⟨h1, h2⟩ := List.mem_filter.1 hu
      have h2 : some u ≠ pre.getLast? := of_decide_eq_true h2
      rcases P.edges c u (mem_succ.1 h1) with h | h <;> rw [e] at h
      · cases next_after hnd h
      · exact h2 (next_before hnd h).symm
  | cons t ts ih =>
    intro pre c e hQ
    have hnd := P.nodup
    rw [e] at hnd
    have htp : some t ≠ pre.getLast? := by
      intro h
      have hm : t ∈ pre := List.mem_of_getLast? h.symm
      exact (List.nodup_append.1 hnd).2.2 t hm t (by simp) rfl
    have hn : Next l c t := ⟨pre, ts, e⟩
    have hnb : ∀ u, some u ≠ pre.getLast? → Next l u c ∨ Next l c u → u = t := by
      intro u hu h
      rw [e] at h
      rcases h with h | h
      · exact absurd (next_before hnd h).symm hu
      · have := next_after hnd h
        exact (Option.some.inj this).symm
    have step : ∀ hQ' : (Q ∨ HasEdge f c t), Line f Q (some c) t ts := by
      intro hQ'
      have := ih (pre ++ [c]) t (by rw [e]; simp) (hQ'.imp id (fun h => ⟨by simp, by
        intro p hp
        rw [List.getLast?_concat] at hp
        cases hp
        exact h⟩))
      rwa [List.getLast?_concat] at this
    rcases P.joined c t hn with ⟨h1, h2⟩ | ⟨h1, h2⟩
    · refine ⟨.inr ⟨List.eq_nil_iff_forall_not_mem.2 ?_, singleton_of ((succ_nodup P.edgesWF c).filter _) ?_, h2⟩, step (.inr h1)⟩
      · intro u hu
        obtain ⟨h3, h4⟩ := List.mem_filter.1 hu
        have := hnb u (of_decide_eq_true h4) (P.edges u c (mem_pred.1 h3))
        subst this
        exact h2 (mem_pred.1 h3)
      · intro u
        rw [List.mem_filter]
        constructor
        · rintro ⟨h3, h4⟩
          exact hnb u (of_decide_eq_true h4) (P.edges c u (mem_succ.1 h3)).symm
        · rintro rfl
          exact ⟨mem_succ.2 h1, decide_eq_true htp⟩
    · have hq : Q := by
        rcases hQ with h | ⟨h3, h4⟩
        · exact h
        · exfalso
          rcases pre.eq_nil_or_concat with rfl | ⟨p', p, rfl⟩
          · exact h3 rfl t h1
          · have h5 := P.oneHead _ _ _ h1 (h4 p (by simp))
            exact htp (by simp [h5])
      refine ⟨.inl ⟨singleton_of ((pred_nodup P.edgesWF c).filter _) ?_, List.eq_nil_iff_forall_not_mem.2 ?_, hq⟩, step (.inl hq)⟩
      · intro u
        rw [List.mem_filter]
        constructor
        · rintro ⟨h3, h4⟩
          exact hnb u (of_decide_eq_true h4) (P.edges u c (mem_pred.1 h3))
        · rintro rfl
          exact ⟨mem_pred.2 h1, decide_eq_true htp⟩
      · intro u hu
        obtain ⟨h3, h4⟩ := List.mem_filter.1 hu
        have := hnb u (of_decide_eq_true h4) (P.edges c u (mem_succ.1 h3)).symm
        subst this
        exact h2 (mem_succ.1 h3)

theorem next_mem {l : List Nat} {a b : Nat} (h : Next l a b) : a ∈ l ∧ b ∈ l := by
  obtain ⟨p, q, rfl⟩ := h
  simp

theorem LineOf.ends {l : List Nat} (P : LineOf f l) (u v : Nat) (h : HasEdge f u v) : u ∈ f.nodes.keys ∧ v ∈ f.nodes.keys := by
  rw [P.all, P.all]
  rcases P.edges u v h with h | h
  · exact next_mem h
  · exact (next_mem h).symm

/-! ## Records -/

theorem ext_nodes (ts : List Nat) : ∀ (w : Walk) (cs c : Nat) (xs : List Nat),
    (ext s f w cs c ts xs).nodes = (xs.zip ts).reverse ++ w.nodes := by
  induction ts with
  | nil => intro w cs c xs; cases xs <;> simp [ext]
  | cons t ts ih =>
    intro w cs c xs
    cases xs with
    | nil => simp [ext]
    | cons x xs => rw [ext, ih]; simp

theorem ext_edges {φ : Nat → Option Nat} {Q : Prop} (ts : List Nat) : ∀ (w : Walk) (prevs prevt : Option Nat) (cs c : Nat) (xs : List Nat),
    Line f Q prevt c ts → (∀ p, prevt = some p → p ∉ c :: ts) → (c :: ts).Nodup → φ c = some cs → xs ∈ paths rx s f prevs cs c ts →
    List.Forall₂ (fun t x => φ t = some x) ts xs →
    (∀ r a b, (r, (a, b)) ∈ (ext s f w cs c ts xs).edges → (r, (a, b)) ∈ w.edges ∨
      HasEdge f a b ∧ ∃ y z, φ a = some y ∧ φ b = some z ∧ s.edges.get? (y, z) = some r) ∧
    (∀ a b, a ∈ c :: ts → b ∈ c :: ts → HasEdge f a b → ∃ r, (r, (a, b)) ∈ (ext s f w cs c ts xs).edges) ∧
    (∀ e ∈ w.edges, e ∈ (ext s f w cs c ts xs).edges) := by
  induction ts with
  | nil =>
    intro w prevs prevt cs c xs hl hpn _ _ hxs _
    cases List.mem_singleton.1 hxs
    refine ⟨fun r a b h => .inl h, ?_, fun e h => h⟩
    intro a b ha hb hE
    have ha : a = c := by simpa using ha
    have hb : b = c := by simpa using hb
    subst ha; subst hb
    rcases line_nbr hl (.inl hE) with h | h
    · exact absurd (by simp) (hpn b h.symm)
    · cases h
  | cons t ts ih =>
    intro w prevs prevt cs c xs hl hpn hnd hc hxs hfa
    obtain ⟨x, xs', rfl, hx, hxs'⟩ := mem_paths_cons.1 hxs
    obtain ⟨hxp, r, l, re, q, hr, hlx, hre, hq, hrr, hrl⟩ := mem_step.1 hx
    obtain ⟨hφt, hfa'⟩ := List.forall₂_cons.1 hfa
    obtain ⟨hd, htp⟩ := line_step hl
    obtain ⟨i1, i2, i3⟩ := ih ⟨(x, t) :: w.nodes, ((s.edges.get? (es f cs c t x)).getD "", et f c t) :: w.edges⟩ (some cs) (some c) x t xs' hl.2
      (by rintro p ⟨⟩; exact (List.nodup_cons.1 hnd).1) (List.nodup_cons.1 hnd).2 hφt hxs' hfa'
    have hnbr : ∀ b, (HasEdge f b c ∨ HasEdge f c b) → b ∈ c :: t :: ts → b = t := by
      intro b hb hm
      rcases line_nbr hl hb with h | h
      · exact absurd hm (hpn b h.symm)
      · exact (Option.some.inj h).symm
    have hnew : (r, et f c t) ∈ (ext s f w cs c (t :: ts) (x :: xs')).edges := by
      refine i3 _ ?_
      rw [hr]
      simp
    refine ⟨?_, ?_, ?_⟩
    · intro r' a b h
      rcases i1 r' a b h with h | h
      · rcases List.mem_cons.1 h with h | h
        · right
          rw [hr] at h
          obtain ⟨rfl, h2⟩ := Prod.mk.inj h
          rcases hd with hd | hd
          · unfold et at h2; unfold es at hr
            rw [if_pos hd.1] at h2 hr
            obtain ⟨rfl, rfl⟩ := Prod.mk.inj h2
            exact ⟨hd.2, x, cs, hφt, hc, hr⟩
          · unfold et at h2; unfold es at hr
            rw [hd.1] at h2 hr
            obtain ⟨rfl, rfl⟩ := Prod.mk.inj h2
            exact ⟨hd.2, cs, x, hc, hφt, hr⟩
        · exact .inl h
      · exact .inr h
    · intro a b ha hb hE
      by_cases hac : a = c
      · subst hac
        have hbt := hnbr b (.inr hE) hb
        subst hbt
        rcases hl.1 with h' | h'
        · have : b ∈ (f.succ a).filter (fun v => decide (some v ≠ prevt)) :=
            List.mem_filter.2 ⟨mem_succ.2 hE, decide_eq_true htp⟩
          rw [h'.2.1] at this; cases this
        · have hu : up f a b = false := decide_eq_false h'.2.2
          unfold et at hnew
          rw [hu] at hnew
          exact ⟨r, hnew⟩
      · by_cases hbc : b = c
        · subst hbc
          have hat := hnbr a (.inl hE) ha
          subst hat
          have hu : up f b a = true := decide_eq_true hE
          unfold et at hnew
          rw [if_pos hu] at hnew
          exact ⟨r, hnew⟩
        · refine i2 a b ?_ ?_ hE
          · exact (List.mem_cons.1 ha).resolve_left hac
          · exact (List.mem_cons.1 hb).resolve_left hbc
    · intro e he
      exact i3 e (by simp [he])

theorem forall₂_mono {R S : Nat → Nat → Prop} {l xs : List Nat} (h : List.Forall₂ R l xs) (hs : ∀ a ∈ l, ∀ b, R a b → S a b) :
    List.Forall₂ S l xs := by
  induction h with
  | nil => exact .nil
  | cons h _ ih => exact .cons (hs _ (by simp) _ h) (ih (fun a ha => hs a (by simp [ha])))

theorem forall₂_zip {l xs : List Nat} (hnd : l.Nodup) (h : xs.length = l.length) :
    List.Forall₂ (fun t x => Dict.get? (l.zip xs : Dict Nat Nat) t = some x) l xs := by
  induction l generalizing xs with
  | nil => cases xs with
    | nil => exact .nil
    | cons => cases h
  | cons t l ih =>
    cases xs with
    | nil => cases h
    | cons x xs =>
      obtain ⟨h1, h2⟩ := List.nodup_cons.1 hnd
      refine .cons (by rw [List.zip_cons_cons, Dict.get?_cons]; simp) ?_
      refine forall₂_mono (ih h2 (by simpa using h)) ?_
      intro a ha b hab
      rw [List.zip_cons_cons, Dict.get?_cons]
      have : t ≠ a := by rintro rfl; exact h1 ha
      simpa [this] using hab

/-- The map of a walk. -/
def mapOf (l xs : List Nat) : Nat → Option Nat := Dict.get? (l.zip xs : Dict Nat Nat)

theorem mapOf_dom {l xs : List Nat} (h : xs.length = l.length) (x : Nat) : (mapOf l xs x).isSome ↔ x ∈ l := by
  unfold mapOf
  rw [Dict.get?_isSome_iff]
  unfold Dict.keys
  rw [List.map_fst_zip (by omega)]

theorem mapOf_eq {l xs : List Nat} (hnd : l.Nodup) {φ : Nat → Option Nat} (h : List.Forall₂ (fun t x => φ t = some x) l xs)
    (hd : ∀ x, (φ x).isSome ↔ x ∈ l) : mapOf l xs = φ := by
  have hlen := h.length_eq
  funext x
  by_cases hx : x ∈ l
  · have h2 := forall₂_zip hnd hlen.symm
    clear hd
    have : ∀ (l' xs' : List Nat), List.Forall₂ (fun t x => φ t = some x) l' xs' → List.Forall₂ (fun t x => mapOf l xs t = some x) l' xs' →
        ∀ x ∈ l', mapOf l xs x = φ x := by
      intro l' xs' h1 h2
      induction h1 with
      | nil => intro x hx; cases hx
      | cons hh _ ih =>
        obtain ⟨h3, h4⟩ := List.forall₂_cons.1 h2
        intro x hx
        rcases List.mem_cons.1 hx with rfl | hx
        · rw [hh, h3]
        · exact ih h4 x hx
    exact this l xs h h2 x hx
  · have h1 : mapOf l xs x = none := by
      have := (mapOf_dom (xs := xs) hlen.symm x).not.2 hx
      simpa using this
    have h2 : φ x = none := by
      have := (hd x).not.2 hx
      simpa using this
    rw [h1, h2]

theorem mem_zip_forall₂ {R : Nat → Nat → Prop} {l xs : List Nat} (h : List.Forall₂ R l xs) {x t : Nat} (hm : (x, t) ∈ xs.zip l) : R t x := by
  induction h with
  | nil => cases hm
  | cons h _ ih =>
    rcases List.mem_cons.1 hm with e | hm
    · cases e; exact h
    · exact ih hm

theorem record_walk {l : List Nat} {tgt v : Nat} {rest xs : List Nat} (hl : l = tgt :: rest) (P : LineOf f l) {Q : Prop}
    (hline : Line f Q none tgt rest) (hxs : xs ∈ paths rx s f none v tgt rest)
    (F : LFits rx s f (mapOf l (v :: xs))) (L : Labelled f) :
    ∃ rec, recordWalk s (ext s f ⟨[(v, tgt)], []⟩ v tgt rest xs) = .ok rec ∧ LRecords s f (mapOf l (v :: xs)) rec := by
  have hlen : (v :: xs).length = l.length := by rw [hl, List.length_cons, List.length_cons, paths_length _ _ _ _ _ hxs]
  have hfa : List.Forall₂ (fun t x => mapOf l (v :: xs) t = some x) l (v :: xs) := forall₂_zip P.nodup hlen
  have hfa' : List.Forall₂ (fun t x => mapOf l (v :: xs) t = some x) (tgt :: rest) (v :: xs) := by rw [← hl]; exact hfa
  obtain ⟨hφt, hfar⟩ := List.forall₂_cons.1 hfa'
  have hnd : (tgt :: rest).Nodup := hl ▸ P.nodup
  obtain ⟨i1, i2, _⟩ := ext_edges (s := s) (rx := rx) rest ⟨[(v, tgt)], []⟩ none none v tgt xs hline (by intro p h; cases h) hnd hφt hxs hfar
  have hnodes : (ext s f ⟨[(v, tgt)], []⟩ v tgt rest xs).nodes.reverse = (v :: xs).zip l := by
    rw [ext_nodes, hl]
    simp
  obtain ⟨ns, hns, hrel⟩ := mapM_exists (fun e : Nat × Nat => nodeLabel s (e.2, e.1))
    (fun e y => y.1 = e.2 ∧ s.nodes.get? e.1 = some (some y.2)) ((v :: xs).zip l) (by
      rintro ⟨x, t⟩ hm
      have hx := mem_zip_forall₂ hfa hm
      obtain ⟨q, hq⟩ := L t ((F.dom t).1 (by rw [hx]; rfl))
      obtain ⟨lb, hlb, _⟩ := F.node t x q hx hq
      refine ⟨(t, lb), ?_, rfl, hlb⟩
      unfold nodeLabel label
      rw [hlb]
      rfl)
  have hkeys : ns.map Prod.fst = l := by
    have : ∀ (z : List (Nat × Nat)) (ns : List (Nat × String)), List.Forall₂ (fun e y => y.1 = e.2 ∧ s.nodes.get? e.1 = some (some y.2)) z ns →
        ns.map Prod.fst = z.map Prod.snd := by
      intro z ns h
      induction h with
      | nil => rfl
      | cons h _ ih => rw [List.map_cons, List.map_cons, h.1, ih]
    rw [this _ _ hrel, List.map_snd_zip (by omega)]
  have hofp : Dict.ofPairs ns = ns := ofPairs_nodup ns (by rw [hkeys]; exact P.nodup)
  refine ⟨⟨Dict.ofPairs ns, Dict.ofPairs ((ext s f ⟨[(v, tgt)], []⟩ v tgt rest xs).edges.reverse.map (fun e => (e.2, e.1)))⟩, ?_, ?_⟩
  · unfold recordWalk
    rw [hnodes, hns]
    rfl
  · have hek : ∀ e, e ∈ Dict.keys (Dict.ofPairs ((ext s f ⟨[(v, tgt)], []⟩ v tgt rest xs).edges.reverse.map (fun e => (e.2, e.1)))) ↔
        ∃ r, (r, e) ∈ (ext s f ⟨[(v, tgt)], []⟩ v tgt rest xs).edges := by
      intro e
      rw [Dict.mem_keys_ofPairs]
      unfold Dict.keys
      rw [List.map_map, List.mem_map]
      constructor
      · rintro ⟨⟨r, e'⟩, h, rfl⟩
        exact ⟨r, List.mem_reverse.1 h⟩
      · rintro ⟨r, h⟩
        exact ⟨(r, e), List.mem_reverse.2 h, rfl⟩
    have hesome : ∀ a b, HasEdge f a b → ∃ r, (r, (a, b)) ∈ (ext s f ⟨[(v, tgt)], []⟩ v tgt rest xs).edges := by
      intro a b h
      have hab := P.ends a b h
      rw [P.all, P.all, hl] at hab
      exact i2 a b hab.1 hab.2 h
    refine ⟨?_, ?_, ?_, ?_⟩
    · intro x
      show x ∈ Dict.keys (Dict.ofPairs ns) ↔ _
      rw [hofp, mapOf_dom hlen]
      unfold Dict.keys
      rw [hkeys]
    · rintro ⟨a, b⟩
      rw [hek]
      constructor
      · rintro ⟨r, h⟩
        rcases i1 r a b h with h | h
        · cases h
        · exact h.1
      · exact hesome a b
    · intro x y hxy
      show s.nodes.get? y = some (Dict.get? (Dict.ofPairs ns) x)
      have hx : x ∈ Dict.keys (Dict.ofPairs ns) := by
        rw [hofp]
        unfold Dict.keys
        rw [hkeys]
        exact (mapOf_dom hlen x).1 (by rw [hxy]; rfl)
      obtain ⟨lb, hlb⟩ := Option.isSome_iff_exists.1 ((Dict.get?_isSome_iff _ _).2 hx)
      rw [hlb]
      have hm := mem_of_ofPairs ns hlb
      obtain ⟨⟨y', x'⟩, hm', h1, h2⟩ : ∃ e ∈ (v :: xs).zip l, x = e.2 ∧ s.nodes.get? e.1 = some (some lb) := by
        have : ∀ (z : List (Nat × Nat)) (ns : List (Nat × String)),
            List.Forall₂ (fun e y => y.1 = e.2 ∧ s.nodes.get? e.1 = some (some y.2)) z ns → (x, lb) ∈ ns →
            ∃ e ∈ z, x = e.2 ∧ s.nodes.get? e.1 = some (some lb) := by
          intro z ns h hm
          induction h with
          | nil => cases hm
          | @cons e y z' ns' h _ ih =>
            rcases List.mem_cons.1 hm with e' | hm
            · exact ⟨e, by simp, by rw [← h.1, ← e'], by rw [h.2, ← e']⟩
            · obtain ⟨e'', h1, h2⟩ := ih hm
              exact ⟨e'', by simp [h1], h2⟩
        exact this _ _ hrel hm
      have h1 : x = x' := h1
      subst h1
      have := mem_zip_forall₂ hfa hm'
      rw [hxy] at this
      cases this
      exact h2
    · intro x x' y y' hE hy hy'
      show Dict.get? (Dict.ofPairs _) (x, x') = _
      obtain ⟨r, hr⟩ := Option.isSome_iff_exists.1 ((Dict.get?_isSome_iff _ _).2 ((hek (x, x')).2 (hesome x x' hE)))
      rw [hr]
      have hm := mem_of_ofPairs _ hr
      obtain ⟨⟨r', e'⟩, hm', he⟩ := List.mem_map.1 hm
      cases he
      rcases i1 r' x x' (List.mem_reverse.1 hm') with h | ⟨_, a, b, h1, h2, h3⟩
      · cases h
      · rw [hy] at h1; rw [hy'] at h2
        cases h1; cases h2
        exact h3.symm

/-! ## C151 -/

/-- Where matching can start. -/
def startB (rx : String → String → Bool) (q : String) (e : Nat × Option String) : Bool := rx q (e.2.getD "ROOT")

/-- **C151 (partial).**  For templates which are lines with the target at one end, matching from the target records exactly the matches,
each once.  Missing: the target in the middle of the line, where nothing is found (`C151_false_middle`), and templates that go up from the
target in sentences with an unlabelled root, where it may fail (`C151_false_up`). -/
theorem C151_partial {f : Feature} {rest : List Nat} (W : Worded s) (asym : ∀ u v, HasEdge s u v → ¬ HasEdge s v u)
    (P : LineOf f.graph (f.target :: rest)) (L : Labelled f.graph)
    (hroot : (∀ v ∈ s.nodes.keys, ∃ l, s.nodes.get? v = some (some l)) ∨
      (∀ u, ¬ HasEdge f.graph u f.target) ∧ ∀ re, f.graph.nodes.get? f.target = some (some re) → rx re "ROOT" = false) :
    ∃ (maps : List (Nat → Option Nat)) (recs : List Found), maps.Nodup ∧ (∀ φ, φ ∈ maps ↔ LFits rx s f.graph φ) ∧
      matchTarget rx s f = .ok { f with found := f.found ++ recs } ∧ List.Forall₂ (LRecords s f.graph) maps recs := by
  have hline : Line f.graph (∀ v ∈ s.nodes.keys, ∃ l, s.nodes.get? v = some (some l)) none f.target rest :=
    line_of P rest [] f.target rfl (hroot.imp id (fun h => ⟨fun _ => h.1, by intro p hp; cases hp⟩))
  obtain ⟨q, hq⟩ := L f.target ((P.all _).2 (by simp))
  have hlen : (f.target :: rest).length = f.graph.nodes.length := by
    have hp : (f.target :: rest).Perm f.graph.nodes.keys :=
      (List.perm_ext_iff_of_nodup P.nodup P.nodesWF).2 (fun x => (P.all x).symm)
    rw [hp.length_eq]
    unfold Dict.keys
    simp
  have hstart : ∀ e ∈ s.nodes, startB rx q e = true → ∃ l, e.2 = some l ∧ rx q l = true := by
    rintro ⟨v, o⟩ he hm
    cases o with
    | some l => exact ⟨l, rfl, hm⟩
    | none =>
      exfalso
      rcases hroot with h | h
      · obtain ⟨l, hl⟩ := h v ((Dict.get?_isSome_iff s.nodes v).1 (by rw [Dict.get?_of_mem W.nodesWF he]; rfl))
        rw [Dict.get?_of_mem W.nodesWF he] at hl
        cases hl
      · have h1 : rx q "ROOT" = true := hm
        rw [h.2 q hq] at h1
        cases h1
  -- all walks
  let all : List (List Nat) := (s.nodes.filter (startB rx q)).flatMap (fun e => (paths rx s f.graph none e.1 f.target rest).map (e.1 :: ·))
  have hmem : ∀ ys, ys ∈ all ↔ ∃ v l xs, s.nodes.get? v = some (some l) ∧ rx q l = true ∧ xs ∈ paths rx s f.graph none v f.target rest ∧
      ys = v :: xs := by
    intro ys
    constructor
    · intro h
      obtain ⟨⟨v, o⟩, he, h⟩ := List.mem_flatMap.1 h
      obtain ⟨he, hm⟩ := List.mem_filter.1 he
      obtain ⟨xs, hxs, rfl⟩ := List.mem_map.1 h
      obtain ⟨l, hl, hr⟩ := hstart _ he hm
      have hl : o = some l := hl
      subst hl
      exact ⟨v, l, xs, Dict.get?_of_mem W.nodesWF he, hr, hxs, rfl⟩
    · rintro ⟨v, l, xs, hv, hr, hxs, rfl⟩
      exact List.mem_flatMap.2 ⟨(v, some l), List.mem_filter.2 ⟨Dict.mem_of_get? hv, hr⟩, List.mem_map_of_mem hxs⟩
  have hnd : all.Nodup := by
    refine List.nodup_flatMap.2 ⟨fun e _ => (paths_nodup W _ _ _ _).map (fun a b h => (List.cons.inj h).2), ?_⟩
    have h1 : (s.nodes.map Prod.fst).Nodup := W.nodesWF
    rw [List.Nodup, List.pairwise_map] at h1
    refine (h1.filter _).imp ?_
    intro a b hab
    simp only [Function.onFun]
    intro y h1 h2
    obtain ⟨_, _, rfl⟩ := List.mem_map.1 h1
    obtain ⟨_, _, h3⟩ := List.mem_map.1 h2
    exact hab (List.cons.inj h3).1.symm
  have hylen : ∀ ys ∈ all, ys.length = (f.target :: rest).length := by
    intro ys hys
    obtain ⟨v, l, xs, _, _, hxs, rfl⟩ := (hmem ys).1 hys
    rw [List.length_cons, List.length_cons, paths_length _ _ _ _ _ hxs]
  have hfit : ∀ ys ∈ all, LFits rx s f.graph (mapOf (f.target :: rest) ys) := by
    intro ys hys
    have hlen' := hylen ys hys
    obtain ⟨v, l, xs, hv, hr, hxs, rfl⟩ := (hmem ys).1 hys
    have hfa : List.Forall₂ (fun t x => mapOf (f.target :: rest) (v :: xs) t = some x) (f.target :: rest) (v :: xs) :=
      forall₂_zip P.nodup hlen'
    obtain ⟨hφt, hfar⟩ := List.forall₂_cons.1 hfa
    obtain ⟨i1, i2, i3⟩ := fits_of_paths rest none none v f.target xs hline P.nodup (by intro p h; cases h) hφt
      (by intro p h; cases h) hxs hfar
    refine ⟨?_, ?_, ?_, ?_⟩
    · intro x
      rw [mapOf_dom hlen', P.all]
    · intro x y re hxy hre
      have hx : x ∈ f.target :: rest := (mapOf_dom hlen' x).1 (by rw [hxy]; rfl)
      rcases List.mem_cons.1 hx with rfl | hx
      · rw [hφt] at hxy; cases hxy
        rw [hq] at hre; cases hre
        exact ⟨l, hv, hr⟩
      · exact i1 x hx y re hxy hre
    · intro x x' y y' re hre hy hy'
      exact i2 x x' y y' re ((mapOf_dom hlen' x).1 (by rw [hy]; rfl)) ((mapOf_dom hlen' x').1 (by rw [hy']; rfl)) hre hy hy'
    · intro x y z b hxy hxz hy hz
      exact i3 x y z b ((P.all x).1 (P.ends x y hxy).1) hxy hxz hy hz
  have hrec : ∀ ys ∈ all, ∃ rec, recordWalk s (ext s f.graph ⟨[(ys.headD 0, f.target)], []⟩ (ys.headD 0) f.target rest ys.tail) = .ok rec ∧
      LRecords s f.graph (mapOf (f.target :: rest) ys) rec := by
    intro ys hys
    have F := hfit ys hys
    obtain ⟨v, l, xs, hv, hr, hxs, rfl⟩ := (hmem ys).1 hys
    exact record_walk rfl P hline hxs F L
  obtain ⟨recs, hrecs, hrel⟩ := mapM_exists _ (fun ys rec => LRecords s f.graph (mapOf (f.target :: rest) ys) rec) all hrec
  refine ⟨all.map (mapOf (f.target :: rest)), recs, ?_, ?_, ?_, ?_⟩
  · refine List.Nodup.map_on ?_ hnd
    intro a ha b hb hab
    have h1 : List.Forall₂ (fun t x => mapOf (f.target :: rest) a t = some x) (f.target :: rest) a := forall₂_zip P.nodup (hylen a ha)
    have h2 : List.Forall₂ (fun t x => mapOf (f.target :: rest) b t = some x) (f.target :: rest) b := forall₂_zip P.nodup (hylen b hb)
    rw [hab] at h1
    generalize mapOf (f.target :: rest) b = φ at h1 h2
    generalize (f.target :: rest) = l at h1 h2
    clear hnd hab ha hb
    induction h1 generalizing b with
    | nil => cases h2; rfl
    | cons h _ ih =>
      cases h2 with
      | cons h' h2 =>
        rw [h] at h'
        cases h'
        rw [ih _ h2]
  · intro φ
    rw [List.mem_map]
    constructor
    · rintro ⟨ys, hys, rfl⟩
      exact hfit ys hys
    · intro F
      obtain ⟨v, hv⟩ := Option.isSome_iff_exists.1 ((F.dom f.target).2 ((P.all _).2 (by simp)))
      obtain ⟨xs, hxs, hfa⟩ := paths_of_fits asym L P.ends P.oneHead F rest none none v f.target hline hv (by intro p h; cases h) rfl
      obtain ⟨l, hl, hr⟩ := F.node f.target v q hv hq
      refine ⟨v :: xs, (hmem _).2 ⟨v, l, xs, hl, hr, hxs, rfl⟩, mapOf_eq P.nodup (.cons hv hfa) ?_⟩
      intro x
      rw [F.dom, P.all]
  · unfold matchTarget
    have e : ∀ x ∈ s.nodes, (do
          let m ← matchNode rx f.graph (x.2.getD "ROOT") f.target
          if m then matchSub rx s f.graph f.graph.nodes.length ⟨[(x.1, f.target)], []⟩ else .ok []) =
        if startB rx q x then ((paths rx s f.graph none x.1 f.target rest).map (x.1 :: ·)).mapM
          (fun ys => recordWalk s (ext s f.graph ⟨[(ys.headD 0, f.target)], []⟩ (ys.headD 0) f.target rest ys.tail)) else .ok [] := by
      rintro ⟨v, o⟩ _
      have hmn : matchNode rx f.graph (o.getD "ROOT") f.target = .ok (startB rx q (v, o)) := by
        unfold matchNode label
        rw [hq]
        rfl
      show (matchNode rx f.graph (o.getD "ROOT") f.target >>= _) = _
      rw [hmn, mapM_map']
      simp only [bind, Except.bind]
      cases startB rx q (v, o) with
      | false => rfl
      | true =>
        simp only [if_true]
        have := matchSub_eq (rx := rx) W L P.ends rest none none v f.target ⟨[(v, f.target)], []⟩ [] hline rfl rfl rfl
          (by rw [← hlen]; simp [Nat.add_comm])
        rw [← hlen]
        exact this
    have e2 := (congrArg (fun z => Except.bind z (fun parts => Except.ok (ε := Err) parts.flatten)) (mapM_congr _ _ _ e)).trans (mapM_flat _ _ _ _)
    have e3 := e2.trans hrecs
    cases hm : s.nodes.mapM (fun x => do
          let m ← matchNode rx f.graph (x.2.getD "ROOT") f.target
          if m then matchSub rx s f.graph f.graph.nodes.length ⟨[(x.1, f.target)], []⟩ else .ok []) with
    | error er => rw [hm] at e3; cases e3
    | ok ps =>
      rw [hm] at e3
      have e3 : Except.ok (ε := Err) ps.flatten = .ok recs := e3
      cases e3
      rfl
  · rw [List.forall₂_map_left_iff]
    exact hrel

/-! ### Examples -/

/-- "boy eats apple" without the artificial root, as `SentenceGraph(nodes=..., edges=...)` makes it. -/
def eatsN : LGraph := ⟨[(1, some "boy/N"), (2, some "eat/V"), (3, some "apple/N")], [((2, 1), "nsubj"), ((2, 3), "obj")]⟩

theorem eatsN_edge {u v : Nat} : HasEdge eatsN u v ↔ (u, v) = (2, 1) ∨ (u, v) = (2, 3) := by
  unfold HasEdge
  have : eatsN.edges.keys = [(2, 1), (2, 3)] := rfl
  rw [this]
  simp

theorem eatsN_worded : Worded eatsN := by
  refine ⟨by unfold Dict.WF; decide, by unfold Dict.WF; decide, ?_, ?_⟩
  · intro u v h
    rcases eatsN_edge.1 h with h | h <;> cases h <;> decide
  · intro u v h
    rcases eatsN_edge.1 h with h | h <;> cases h <;> exact ⟨_, rfl⟩

/-- The template with two nouns is a line from one noun over the verb to the other one. -/
theorem verbL_line : LineOf verbL [2, 1, 3] := by
  have hn : verbL.nodes.keys = [1, 2, 3] := rfl
  have hnx : ∀ a b, Next [2, 1, 3] a b ↔ (a, b) = (2, 1) ∨ (a, b) = (1, 3) := by
    intro a b
    constructor
    · rintro ⟨p, q, e⟩
      match p, e with
      | [], e => cases e; simp
      | [_], e => cases e; simp
      | [_, _], e => cases e
      | _ :: _ :: _ :: p, e => simp at e
    · rintro (h | h) <;> cases h
      · exact ⟨[], [3], rfl⟩
      · exact ⟨[2], [], rfl⟩
  refine ⟨by decide, by unfold Dict.WF; decide, by unfold Dict.WF; decide, ?_, ?_, ?_, verbL_rooted.oneHead⟩
  · intro x
    rw [hn]
    simp only [List.mem_cons, List.not_mem_nil, or_false]
    omega
  · intro u v h
    rw [verbL_edge] at h
    rw [hnx, hnx]
    rcases h with h | h <;> cases h <;> simp
  · intro u v h
    rw [hnx] at h
    rw [verbL_edge, verbL_edge]
    rcases h with h | h <;> cases h <;> simp

/-- `verbF` has the first noun as its target. -/
example : ∃ (maps : List (Nat → Option Nat)) (recs : List Found), maps.Nodup ∧ (∀ φ, φ ∈ maps ↔ LFits rxL eatsN verbL φ) ∧
    matchTarget rxL eatsN verbF = .ok { verbF with found := recs } ∧ List.Forall₂ (LRecords eatsN verbL) maps recs :=
  C151_partial (f := verbF) (rest := [1, 3]) eatsN_worded
    (by intro u v h h'; rcases eatsN_edge.1 h with h | h <;> cases h <;> rcases eatsN_edge.1 h' with h' | h' <;> cases h') verbL_line verbL_labelled
    (.inl (by
      intro v hv
      have hn : eatsN.nodes.keys = [1, 2, 3] := rfl
      rw [hn] at hv
      simp only [List.mem_cons, List.not_mem_nil, or_false] at hv
      rcases hv with rfl | rfl | rfl <;> exact ⟨_, rfl⟩))

/-- The matches are those of `match_feature`, in another order. -/
example : matchTarget rxL eatsN verbF = .ok { verbF with found :=
    [⟨[(2, "boy/N"), (1, "eat/V"), (3, "apple/N")], [((1, 2), "nsubj"), ((1, 3), "obj")]⟩,
     ⟨[(2, "apple/N"), (1, "eat/V"), (3, "boy/N")], [((1, 2), "obj"), ((1, 3), "nsubj")]⟩] } := by decide +kernel

/-- **C151 is false** for a target in the middle: nothing is found where `match_feature` finds two matches. -/
theorem C151_false_middle : matchTarget rxL eatsN ⟨verbL, 1, 2, []⟩ = .ok ⟨verbL, 1, 2, []⟩ ∧
    ∃ a b, treeMatch rxL (fun _ => true) eatsN ⟨verbL, 1, 2, []⟩ = .ok ⟨verbL, 1, 2, [a, b]⟩ :=
  ⟨by decide +kernel, ⟨[(1, "eat/V"), (2, "boy/N"), (3, "apple/N")], [((1, 2), "nsubj"), ((1, 3), "obj")]⟩,
    ⟨[(1, "eat/V"), (2, "apple/N"), (3, "boy/N")], [((1, 2), "obj"), ((1, 3), "nsubj")]⟩, by decide +kernel⟩

/-- **C151 is false** for templates that go up from the target: at a word that depends on the artificial root there is a `KeyError`,
where `match_feature` finds nothing. -/
theorem C151_false_up : ∃ f : Feature, matchTarget rxL eatsL f = .error .keyError ∧ treeMatch rxL (fun _ => true) eatsL f = .ok f :=
  ⟨⟨⟨[(1, some "N"), (2, some "V")], [((1, 2), ".*")]⟩, 2, 2, []⟩, by decide +kernel, by decide +kernel⟩

end Verif.Dep.Basic
