import Verif.Matrix.Cache
import Verif.Matrix.Named
import Mathlib.Data.List.Induction

/-!
# C132: names are found at their present position
-/

namespace Verif.Matrix
open Verif.Py
set_option linter.unusedSectionVars false

variable {κ : Type} [LinearOrder κ]

/-! ### Specification: matrices without tables -/

/-- The last position of a name. -/
def posOf (l : List κ) (x : κ) : Option Nat := (l.zipIdx.reverse.find? (fun p => decide (p.1 = x))).map (fun p => p.2)

/-- A matrix without tables, with a note whether its row and column names have been looked up. -/
structure Plain (κ : Type) where
  rows : List κ
  cols : List κ
  seenR : Bool
  seenC : Bool

/-- The names of a request that exist. -/
def wanted (items : List κ) (req : Option (List κ)) : List κ :=
  match req with
  | none => items
  | some l => l.filter (fun e => decide (e ∈ items))

/-- A request that names nothing that exists. -/
def idle (items : List κ) (req : Option (List κ)) : Bool :=
  match req with
  | none => false
  | some l => decide (∀ e ∈ l, e ∉ items)

def Plain.look (o : Plain κ) (r c : κ) : Out :=
  match posOf o.rows r, posOf o.cols c with
  | some i, some j => .pos i j
  | _, _ => .keyError

/-- The note after a selection. -/
def Plain.note (o : Plain κ) (row col : Option (List κ)) : Plain κ :=
  { o with seenR := o.seenR || row.isSome, seenC := o.seenC || (col.isSome && !idle o.rows row) }

/-- The selected matrix. -/
def Plain.part (o : Plain κ) (row col : Option (List κ)) : Option (Plain κ) :=
  if idle o.rows row = true ∨ idle o.cols col = true then none
  else some ⟨wanted o.rows row, wanted o.cols col, false, false⟩

/-- One action. -/
def plainAct (st : List (Plain κ)) (a : Act κ) : List (Plain κ) × Out :=
  match a with
  | .make rows cols => (st ++ [⟨rows, cols, false, false⟩], .nothing)
  | .get n r c => match st[n]? with
    | none => (st, .nothing)
    | some o => (st.set n { o with seenR := true, seenC := true }, o.look r c)
  | .select n row col => match st[n]? with
    | none => (st, .nothing)
    | some o => (st.set n (o.note row col) ++ (o.part row col).toList, .nothing)
  | .transpose n => match st[n]? with
    | none => (st, .nothing)
    | some o => (st ++ [⟨o.cols, o.rows, false, false⟩], .nothing)
  | .copy n => match st[n]? with
    | none => (st, .nothing)
    | some o => (st ++ [o], .nothing)
  | .renameRow n i x => match st[n]? with
    | none => (st, .nothing)
    | some o => (st.set n { o with rows := o.rows.set i x }, .nothing)
  | .renameCol n i x => match st[n]? with
    | none => (st, .nothing)
    | some o => (st.set n { o with cols := o.cols.set i x }, .nothing)

def plainObserve (st : List (Plain κ)) : List (Act κ) → List Out
  | [] => []
  | a :: as => (plainAct st a).2 :: plainObserve (plainAct st a).1 as

/-- The action does not rename items of a matrix whose items of that kind have been looked up. -/
def fair (st : List (Plain κ)) : Act κ → Bool
  | .renameRow n _ _ => (st[n]?.map (fun o => !o.seenR)).getD true
  | .renameCol n _ _ => (st[n]?.map (fun o => !o.seenC)).getD true
  | _ => true

/-- No action of a program does. -/
def Fair (st : List (Plain κ)) : List (Act κ) → Prop
  | [] => True
  | a :: as => fair st a = true ∧ Fair (plainAct st a).1 as

/-! ### Lemmas -/

theorem get?_foldl_set {α β : Type} [DecidableEq α] (ps : List (α × β)) (d : Dict α β) (k : α) :
    Dict.get? (ps.foldl (fun d p => Dict.set d p.1 p.2) d) k =
      ((ps.reverse.find? (fun p => decide (p.1 = k))).map (fun p => p.2)).or (Dict.get? d k) := by
  induction ps generalizing d with
  | nil => simp
  | cons p ps ih =>
    rw [List.foldl_cons, ih, Dict.get?_set, List.reverse_cons, List.find?_append]
    by_cases h : p.1 = k
    · cases List.find? (fun p => decide (p.1 = k)) ps.reverse <;> simp [h]
    · cases List.find? (fun p => decide (p.1 = k)) ps.reverse <;> simp [h]

theorem get?_idOf_posOf (l : List κ) (x : κ) : (idOf l).get? x = posOf l x := by
  unfold idOf posOf
  have := get?_foldl_set l.zipIdx ([] : Dict κ Nat) x
  simpa [Dict.ofPairs] using this

/-- The object stands for the plain one. -/
structure Stands (o : Obj κ) (p : Plain κ) : Prop where
  rows : o.rows = p.rows
  cols : o.cols = p.cols
  rid : o.rid = if p.seenR then some (idOf o.rows) else none
  cid : o.cid = if p.seenC then some (idOf o.cols) else none

theorem Stands.rowIds {o : Obj κ} {p : Plain κ} (h : Stands o p) : o.rowIds = idOf o.rows := by
  unfold Obj.rowIds
  rw [h.rid]
  split <;> rfl

theorem Stands.colIds {o : Obj κ} {p : Plain κ} (h : Stands o p) : o.colIds = idOf o.cols := by
  unfold Obj.colIds
  rw [h.cid]
  split <;> rfl

theorem Stands.keepRows {o : Obj κ} {p : Plain κ} (h : Stands o p) : Stands o.keepRows { p with seenR := true } :=
  ⟨h.rows, h.cols, by simp [Obj.keepRows, h.rowIds], h.cid⟩

theorem Stands.keepCols {o : Obj κ} {p : Plain κ} (h : Stands o p) : Stands o.keepCols { p with seenC := true } :=
  ⟨h.rows, h.cols, h.rid, by simp [Obj.keepCols, h.colIds]⟩

theorem Stands.new (rows cols : List κ) : Stands (Obj.new rows cols) ⟨rows, cols, false, false⟩ := ⟨rfl, rfl, rfl, rfl⟩

theorem found_spec (items : List κ) (req : Option (List κ)) :
    found (idOf items) items req = if idle items req = true then none else some (wanted items req) := by
  unfold found idle wanted
  cases req with
  | none => simp
  | some l =>
    have hf : l.filter (fun e => (idOf items).contains e) = l.filter (fun e => decide (e ∈ items)) := by
      congr 1; funext e; exact contains_idOf items e
    simp only [hf]
    by_cases h : ∀ e ∈ l, e ∉ items
    · rw [if_pos, if_pos (decide_eq_true h)]
      rw [List.length_eq_zero_iff, List.filter_eq_nil_iff]
      intro e he
      simp [h e he]
    · rw [if_neg, if_neg (by simpa using h)]
      rw [List.length_eq_zero_iff, List.filter_eq_nil_iff]
      intro hc
      exact h (fun e he => by simpa using hc e he)

theorem Stands.select {o : Obj κ} {p : Plain κ} (h : Stands o p) (row col : Option (List κ)) :
    Stands (o.select row col).1 (p.note row col) ∧
      List.Forall₂ Stands (o.select row col).2.toList (p.part row col).toList := by
  have h1 : Stands (if row.isSome then o.keepRows else o) { p with seenR := p.seenR || row.isSome } := by
    cases row with
    | none => simpa using h
    | some l => simpa using h.keepRows
  unfold Obj.select Plain.note Plain.part
  simp only
  generalize (if row.isSome then o.keepRows else o) = o1 at h1
  rw [h1.rowIds, found_spec, h1.rows]
  simp only
  by_cases hi : idle p.rows row = true
  · rw [if_pos hi]
    simp only [hi, true_or, if_true]
    refine ⟨?_, by simp⟩
    simpa using h1
  · rw [if_neg hi]
    have hi' : idle p.rows row = false := by simpa using hi
    have h2 : Stands (if col.isSome then o1.keepCols else o1)
        { p with seenR := p.seenR || row.isSome, seenC := p.seenC || col.isSome } := by
      cases col with
      | none => simpa using h1
      | some l => simpa using h1.keepCols
    simp only
    generalize (if col.isSome then o1.keepCols else o1) = o2 at h2
    rw [h2.colIds, found_spec, h2.cols]
    simp only
    by_cases hj : idle p.cols col = true
    · rw [if_pos hj]
      simp only [hj, or_true, if_true, hi']
      refine ⟨by simpa using h2, by simp⟩
    · rw [if_neg hj]
      simp only [hi', hj]
      refine ⟨by simpa using h2, ?_⟩
      simpa using Stands.new _ _

theorem Stands.look {o : Obj κ} {p : Plain κ} (h : Stands o p) (r c : κ) : o.look r c = p.look r c := by
  unfold Obj.look Plain.look
  rw [h.rowIds, h.colIds, get?_idOf_posOf, get?_idOf_posOf, h.rows, h.cols]
  cases posOf p.rows r <;> cases posOf p.cols c <;> rfl

theorem forall₂_get {α β : Type} {R : α → β → Prop} {l : List α} {l' : List β} (h : List.Forall₂ R l l') (n : Nat) :
    (l[n]? = none ∧ l'[n]? = none) ∨ ∃ a b, l[n]? = some a ∧ l'[n]? = some b ∧ R a b := by
  induction h generalizing n with
  | nil => simp
  | cons hab _ ih =>
    cases n with
    | zero => exact Or.inr ⟨_, _, rfl, rfl, hab⟩
    | succ n => simpa using ih n

theorem forall₂_set {α β : Type} {R : α → β → Prop} {l : List α} {l' : List β} (h : List.Forall₂ R l l') (n : Nat) {a : α} {b : β}
    (hab : R a b) : List.Forall₂ R (l.set n a) (l'.set n b) := by
  induction h generalizing n with
  | nil => simp
  | cons hcd ht ih =>
    cases n with
    | zero => exact .cons hab ht
    | succ n => exact .cons hcd (ih n)

theorem forall₂_append {α β : Type} {R : α → β → Prop} {l : List α} {l' : List β} {k : List α} {k' : List β}
    (h : List.Forall₂ R l l') (h' : List.Forall₂ R k k') : List.Forall₂ R (l ++ k) (l' ++ k') := by
  induction h with
  | nil => exact h'
  | cons hab _ ih => exact .cons hab ih

theorem act_stands {st : List (Obj κ)} {ps : List (Plain κ)} (h : List.Forall₂ Stands st ps) (a : Act κ) (hf : fair ps a = true) :
    (act st a).2 = (plainAct ps a).2 ∧ List.Forall₂ Stands (act st a).1 (plainAct ps a).1 := by
  cases a with
  | make rows cols => exact ⟨rfl, forall₂_append h (.cons (Stands.new _ _) .nil)⟩
  | get n r c =>
    unfold act plainAct
    rcases forall₂_get h n with ⟨h1, h2⟩ | ⟨o, p, h1, h2, hop⟩
    · simp only [h1, h2]; exact ⟨trivial, h⟩
    · simp only [h1, h2]
      exact ⟨hop.look r c, forall₂_set h n hop.keepRows.keepCols⟩
  | select n row col =>
    unfold act plainAct
    rcases forall₂_get h n with ⟨h1, h2⟩ | ⟨o, p, h1, h2, hop⟩
    · simp only [h1, h2]; exact ⟨trivial, h⟩
    · simp only [h1, h2]
      exact ⟨trivial, forall₂_append (forall₂_set h n (hop.select row col).1) (hop.select row col).2⟩
  | transpose n =>
    unfold act plainAct
    rcases forall₂_get h n with ⟨h1, h2⟩ | ⟨o, p, h1, h2, hop⟩
    · simp only [h1, h2]; exact ⟨trivial, h⟩
    · simp only [h1, h2]
      refine ⟨trivial, forall₂_append h (.cons ?_ .nil)⟩
      rw [hop.rows, hop.cols]
      exact Stands.new _ _
  | copy n =>
    unfold act plainAct
    rcases forall₂_get h n with ⟨h1, h2⟩ | ⟨o, p, h1, h2, hop⟩
    · simp only [h1, h2]; exact ⟨trivial, h⟩
    · simp only [h1, h2]
      exact ⟨trivial, forall₂_append h (.cons hop .nil)⟩
  | renameRow n i x =>
    unfold act plainAct
    rcases forall₂_get h n with ⟨h1, h2⟩ | ⟨o, p, h1, h2, hop⟩
    · simp only [h1, h2]; exact ⟨trivial, h⟩
    · simp only [fair, h2, Option.map_some, Option.getD_some, Bool.not_eq_true'] at hf
      simp only [h1, h2]
      refine ⟨trivial, forall₂_set h n ⟨by rw [hop.rows], hop.cols, ?_, hop.cid⟩⟩
      simp only [hop.rid, hf]
      rfl
  | renameCol n i x =>
    unfold act plainAct
    rcases forall₂_get h n with ⟨h1, h2⟩ | ⟨o, p, h1, h2, hop⟩
    · simp only [h1, h2]; exact ⟨trivial, h⟩
    · simp only [fair, h2, Option.map_some, Option.getD_some, Bool.not_eq_true'] at hf
      simp only [h1, h2]
      refine ⟨trivial, forall₂_set h n ⟨hop.rows, by rw [hop.cols], hop.rid, ?_⟩⟩
      simp only [hop.cid, hf]
      rfl

/-! ### C132 -/

/-- **C132**.  For every program that creates matrices, looks up entries by name, selects, transposes and copies, and renames
items only as long as items of that kind of the matrix have not been looked up, every look-up finds the name where it is now
(at its last position, if it is repeated). -/
theorem C132_partial (as : List (Act κ)) (hf : Fair [] as) : observe [] as = plainObserve [] as := by
  have key : ∀ (as : List (Act κ)) (st : List (Obj κ)) (ps : List (Plain κ)), List.Forall₂ Stands st ps → Fair ps as →
      observe st as = plainObserve ps as := by
    intro as
    induction as with
    | nil => intro _ _ _ _; rfl
    | cons a as ih =>
      intro st ps h hf
      obtain ⟨h1, h2⟩ := act_stands h a hf.1
      unfold observe plainObserve
      rw [h1, ih _ _ h2 hf.2]
  exact key as [] [] .nil hf

/-- In particular for every program that renames nothing. -/
theorem C132_no_rename (as : List (Act κ)) (hr : ∀ n i x, Act.renameRow n i x ∉ as) (hc : ∀ n i x, Act.renameCol n i x ∉ as) :
    observe [] as = plainObserve [] as := by
  apply C132_partial
  have key : ∀ (as : List (Act κ)) (ps : List (Plain κ)), (∀ n i x, Act.renameRow n i x ∉ as) →
      (∀ n i x, Act.renameCol n i x ∉ as) → Fair ps as := by
    intro as
    induction as with
    | nil => intro _ _ _; trivial
    | cons a as ih =>
      intro ps h1 h2
      refine ⟨?_, ih _ (fun n i x h => h1 n i x (List.mem_cons_of_mem _ h)) (fun n i x h => h2 n i x (List.mem_cons_of_mem _ h))⟩
      cases a with
      | renameRow n i x => exact absurd List.mem_cons_self (h1 n i x)
      | renameCol n i x => exact absurd List.mem_cons_self (h2 n i x)
      | _ => rfl
  exact key as [] hr hc

/-- Where the reference finds a name, it is. -/
theorem C132_reference (l : List κ) (x : κ) (i : Nat) : posOf l x = some i ↔ l[i]? = some x ∧ ∀ j, i < j → l[j]? ≠ some x := by
  rw [← get?_idOf_posOf]
  induction l using List.reverseRecOn generalizing i with
  | nil => simp [idOf, Dict.ofPairs, Dict.get?_nil]
  | append_singleton l y ih =>
    have hid : (idOf (l ++ [y])).get? x = if y = x then some l.length else (idOf l).get? x := by
      rw [get?_idOf_posOf, get?_idOf_posOf]
      unfold posOf
      rw [List.zipIdx_append, List.reverse_append]
      by_cases h : y = x
      · simp [h]
      · simp [h]
    rw [hid]
    by_cases h : y = x
    · subst h
      rw [if_pos rfl]
      constructor
      · intro hi
        obtain rfl := Option.some.inj hi
        refine ⟨by simp, ?_⟩
        intro j hj
        rw [List.getElem?_eq_none (by simp; omega)]
        simp
      · rintro ⟨h1, h2⟩
        have hlt := lt_of_getElem? h1
        simp at hlt
        by_contra hne
        have hlt' : i < l.length := by
          rcases Nat.lt_or_ge i l.length with h | h
          · exact h
          · exact absurd (by congr 1; omega) hne
        exact h2 l.length hlt' (by simp)
    · rw [if_neg h, ih]
      constructor
      · rintro ⟨h1, h2⟩
        have hlt := lt_of_getElem? h1
        refine ⟨by rw [List.getElem?_append_left hlt]; exact h1, ?_⟩
        intro j hj hx
        rcases Nat.lt_or_ge j l.length with hjl | hjl
        · rw [List.getElem?_append_left hjl] at hx
          exact h2 j hj hx
        · rw [List.getElem?_append_right hjl] at hx
          cases hjj : j - l.length with
          | zero => rw [hjj] at hx; simp at hx; exact h hx
          | succ k => rw [hjj] at hx; simp at hx
      · rintro ⟨h1, h2⟩
        have hlt : i < l.length := by
          by_contra hc
          have := lt_of_getElem? h1
          simp at this
          obtain rfl : i = l.length := by omega
          simp at h1
          exact h h1
        refine ⟨by rw [List.getElem?_append_left hlt] at h1; exact h1, ?_⟩
        intro j hj hx
        exact h2 j hj (by rw [List.getElem?_append_left (lt_of_getElem? hx)]; exact hx)

/-- The claim without the condition on renaming is false: after an item has been looked up, its new name is unknown and its old
name is still found. -/
theorem C132_counterexample :
    observe [] [.make [10, 11] [20], .get 0 11 20, .renameRow 0 1 12, .get 0 12 20, .get 0 11 20] =
      [.nothing, .pos 1 0, .nothing, .keyError, .pos 1 0] ∧
    plainObserve [] [.make [10, 11] [20], .get 0 11 20, .renameRow 0 1 12, .get 0 12 20, .get 0 11 20] =
      [.nothing, .pos 1 0, .nothing, .pos 1 0, .keyError] := by
  constructor <;> decide

/-- A program that meets the condition: a rename before the first look-up, a selection in another order, a transposition. -/
example : Fair ([] : List (Plain Nat)) [.make [10, 11] [20, 21], .renameRow 0 1 12, .get 0 12 21, .select 0 (some [12, 99, 10]) none,
      .get 1 10 20, .transpose 1, .get 2 21 12, .copy 0, .get 3 11 20] ∧
    observe [] [.make [10, 11] [20, 21], .renameRow 0 1 12, .get 0 12 21, .select 0 (some [12, 99, 10]) none,
      .get 1 10 20, .transpose 1, .get 2 21 12, .copy 0, .get 3 11 20] =
      [.nothing, .nothing, .pos 1 1, .nothing, .pos 1 0, .nothing, .pos 1 0, .nothing, .keyError] := by
  refine ⟨⟨rfl, rfl, rfl, rfl, rfl, rfl, rfl, rfl, rfl, trivial⟩, by decide⟩

end Verif.Matrix
