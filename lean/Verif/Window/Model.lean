import Verif.Corpus.Formatter

/-!
# Model of the sliding window and the per-file loops

`core/terms.py` `Window`, `core/handler.py` `update_one_file`, and the two families of callbacks in
`models/typetoken.py` (`ColFreqHandler`, `TokenHandler`).

A node of the window is a pair (match, line number).  Python's truth value of such a pair is true, so
`while win.node:` tests for `None`.
-/

namespace Verif.Window
open Verif.Py Verif.Vocab Verif.Corpus

/-- `deque(maxlen=n).append(x)`: the oldest element is dropped when the deque is full (Python library). -/
def dequeAppend {α : Type} (n : Nat) (d : List α) (x : α) : List α := (d ++ [x]).drop (d.length + 1 - n)

/-- A `Window` object: `/repo/nephosem/core/terms.py:414-436`. -/
structure Win (α : Type) where
  lspan : Nat
  rspan : Nat
  left : List (Option α)
  right : List (Option α)
  node : Option α
  deriving DecidableEq, Repr

variable {α : Type}

/-- `Window.__init__` and `init_span`: `/repo/nephosem/core/terms.py:431-442`. -/
def Win.init (L R : Nat) : Win α :=
  { lspan := L, rspan := R, left := List.replicate L none, right := List.replicate R none, node := none }

/-- `Window.update`: `/repo/nephosem/core/terms.py:444-465`.  `right[0]` exists because the right deque always
has `right_span` elements (`right_length` in the lemma file); the model reads a missing element as `None`. -/
def Win.update (w : Win α) (cur : Option α) : Win α :=
  let left := if 0 < w.lspan then dequeAppend w.lspan w.left w.node else w.left
  if 0 < w.rspan then
    { w with left := left, node := (w.right.head?).join, right := dequeAppend w.rspan w.right cur }
  else
    { w with left := left, node := cur }

/-- Exceptions of the window code, and a marker for a `while` loop that exceeds the model's bound on its
iterations (`run_file` proves that it never occurs). -/
inductive Err where
  | indexError | loops
  deriving DecidableEq, Repr

/-- The callbacks of a handler class: `update_one_match` and `process_right_window`. -/
structure Callbacks (D α : Type) where
  onMatch : D → Win α → D
  onEnd : D → Win α → Except Err D

variable {ℓ μ κ D : Type}

/-- Loop state of `update_one_file`: data, window, line number. -/
structure FileState (D μ : Type) where
  data : D
  win : Win (μ × Nat)
  lid : Nat

/-- One line of `BaseHandler.update_one_file`: `/repo/nephosem/core/handler.py:325-337`. -/
def fileLine (f : Formatter ℓ μ κ) (L R : Nat) (cb : Callbacks D (μ × Nat)) (s : FileState D μ) (line : ℓ) :
    Except Err (FileState D μ) :=
  let lid := s.lid + 1
  match f.matchLine line with
  | none =>
    if f.isSep line then do
      let d ← cb.onEnd s.data s.win
      .ok { data := d, win := Win.init L R, lid := lid }
    else .ok { s with lid := lid }
  | some m =>
    let w := s.win.update (some (m, lid))
    .ok { data := cb.onMatch s.data w, win := w, lid := lid }

/-- `BaseHandler.update_one_file`: `/repo/nephosem/core/handler.py:313-340`.  The file is its list of stripped
lines; the file id, constant for one file, is left out. -/
def updateFile (f : Formatter ℓ μ κ) (L R : Nat) (cb : Callbacks D (μ × Nat)) (d : D) (file : List ℓ) : Except Err D := do
  let s ← file.foldlM (fileLine f L R cb) { data := d, win := Win.init L R, lid := 0 }
  cb.onEnd s.data s.win

/-! ### `ColFreqHandler` -/

variable [LinearOrder κ]

/-- The nested `defaultdict(lambda: defaultdict(int))` of co-occurrence counts. -/
abbrev Nested (κ : Type) := Dict κ (Dict κ Int)

/-- `mtx_dict[t][c] += 1`: `/repo/nephosem/models/typetoken.py:404, 406`. -/
def bump (d : Nested κ) (t c : κ) : Nested κ :=
  let row := (d.get? t).getD []
  d.set t (row.set c ((row.get? c).getD 0 + 1))

/-- The value `mtx_dict[t][c]` (0 if absent). -/
def cell (d : Nested κ) (t c : κ) : Int := (((d.get? t).getD []).get? c).getD 0

/-- The mutable part of the triple `matrix = (mtx_dict, row_vocab, col_vocab)`:
`/repo/nephosem/models/typetoken.py:352-356`. -/
structure ColData (κ : Type) where
  mtx : Nested κ
  colv : Vocab κ

/-- The loop body for one collocate: `/repo/nephosem/models/typetoken.py:400-409, 417-423`. -/
def addColloc (d : ColData κ) (t c : κ) : ColData κ :=
  if !d.colv.filter then { mtx := bump d.mtx t c, colv := increment d.colv c 1 }
  else if contains d.colv c then { d with mtx := bump d.mtx t c }
  else d

/-- One window slot: `None` is skipped. -/
def addSlot (f : Formatter ℓ μ κ) (t : κ) (d : ColData κ) (slot : Option (μ × Nat)) : ColData κ :=
  match slot with
  | none => d
  | some x => addColloc d t (f.getColloc x.1)

/-- `ColFreqHandler.update_one_match`: `/repo/nephosem/models/typetoken.py:361-423`.  The loops run over
`range(lspan)` and `range(rspan)`, which are the lengths of the deques. -/
def colMatch (f : Formatter ℓ μ κ) (rowv : Vocab κ) (d : ColData κ) (w : Win (μ × Nat)) : ColData κ :=
  match w.node with
  | none => d
  | some x =>
    let t := f.getType x.1
    let found := if rowv.filter then contains rowv t else true
    if !found then d
    else w.right.foldl (addSlot f t) (w.left.foldl (addSlot f t) d)

/-- First loop of the special case: `/repo/nephosem/models/typetoken.py:432-434`; `n` is `right_span - i`. -/
def skipNone : Nat → Win α → Nat × Win α
  | 0, w => (0, w)
  | n + 1, w => match w.node with
    | none => skipNone n (w.update none)
    | some _ => (n + 1, w)

/-- Second loop of the special case: `/repo/nephosem/models/typetoken.py:435-438`; `n` is `right_span - i`. -/
def drainSpecial (onMatch : D → Win α → D) : Nat → D → Win α → D
  | 0, d, _ => d
  | n + 1, d, w => match w.node with
    | none => d
    | some _ => drainSpecial onMatch n (onMatch d w) (w.update none)

/-- The loop of the normal case: `/repo/nephosem/models/typetoken.py:443-446`, also `634-641`; at most `n`
iterations. -/
def drainNormal (onMatch : D → Win α → D) : Nat → D → Win α → Except Err D
  | n, d, w => match w.node with
    | none => .ok d
    | some _ => match n with
      | 0 => .error .loops
      | n + 1 => let w := w.update none
                 drainNormal onMatch n (onMatch d w) w

/-- `ColFreqHandler.process_right_window`: `/repo/nephosem/models/typetoken.py:425-446`. -/
def colEnd (onMatch : D → Win α → D) (d : D) (w : Win α) : Except Err D :=
  match w.node with
  | none =>
    let (n, w') := skipNone w.rspan w
    .ok (drainSpecial onMatch n d w')
  | some _ => drainNormal onMatch (w.rspan + 1) d w

/-- The callbacks of `ColFreqHandler`. -/
def colCallbacks (f : Formatter ℓ μ κ) (rowv : Vocab κ) : Callbacks (ColData κ) (μ × Nat) :=
  { onMatch := colMatch f rowv, onEnd := colEnd (colMatch f rowv) }

/-! ### `TokenHandler` -/

/-- A `TokenNode`: the match and line number of the token and its left and right collocates (match and line
number each): `/repo/nephosem/models/typetoken.py:604-616`, `/repo/nephosem/core/terms.py:293-330`. -/
structure Token (μ : Type) where
  m : μ
  lid : Nat
  left : List (μ × Nat)
  right : List (μ × Nat)
  deriving DecidableEq, Repr

/-- `TokenHandler.update_one_match`: `/repo/nephosem/models/typetoken.py:571-616`.  `colv = none` stands for
`nocolvocab`.  `type2toks` maps each query type to the token list of its `TypeNode`; `append_token` appends. -/
def tokMatch (f : Formatter ℓ μ κ) (colv : Option (Vocab κ)) (d : Dict κ (List (Token μ))) (w : Win (μ × Nat)) :
    Dict κ (List (Token μ)) :=
  match w.node with
  | none => d
  | some x =>
    match d.get? (f.getType x.1) with
    | none => d
    | some toks =>
      let left := w.left.filterMap id
      let right := w.right.filterMap id
      let keep (y : μ × Nat) : Bool := match colv with
        | none => true
        | some v => contains v (f.getColloc y.1)
      d.set (f.getType x.1) (toks ++ [{ m := x.1, lid := x.2, left := left.filter keep, right := right.filter keep }])

/-- First loop of the special case, `/repo/nephosem/models/typetoken.py:627-628`; at most `n` iterations. -/
def tokSkip : Nat → Win α → Except Err (Win α)
  | n, w => match w.node with
    | some _ => .ok w
    | none => match n with
      | 0 => .error .loops
      | n + 1 => tokSkip n (w.update none)

/-- Second loop of the special case, `/repo/nephosem/models/typetoken.py:629-631`; at most `n` iterations. -/
def tokDrain (onMatch : D → Win α → D) : Nat → D → Win α → Except Err D
  | n, d, w => match w.node with
    | none => .ok d
    | some _ => match n with
      | 0 => .error .loops
      | n + 1 => tokDrain onMatch n (onMatch d w) (w.update none)

/-- `TokenHandler.process_right_window`: `/repo/nephosem/models/typetoken.py:618-641`.  `win.right[-1]` on an
empty deque (right span 0) is an `IndexError`; it is only evaluated when the centre is `None`. -/
def tokEnd (onMatch : D → Win α → D) (d : D) (w : Win α) : Except Err D :=
  match w.node with
  | some _ => drainNormal onMatch (w.rspan + 1) d w
  | none =>
    match w.right.getLast? with
    | none => .error .indexError
    | some none => drainNormal onMatch (w.rspan + 1) d w
    | some (some _) => do
      let w' ← tokSkip (w.rspan + 1) w
      tokDrain onMatch (w.rspan + 1) d w'

/-- The callbacks of `TokenHandler`. -/
def tokCallbacks (f : Formatter ℓ μ κ) (colv : Option (Vocab κ)) : Callbacks (Dict κ (List (Token μ))) (μ × Nat) :=
  { onMatch := tokMatch f colv, onEnd := tokEnd (tokMatch f colv) }

end Verif.Window
