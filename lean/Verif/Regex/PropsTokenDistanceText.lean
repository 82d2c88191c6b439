import Verif.Regex.PropsTokenMatrix
import Verif.Flow.PropsTokenDistance

/-!
# C215: from the settings and the texts of a corpus to the distances of tokens
-/

namespace Verif.Regex

open Verif.Py
open Verif.Vocab.Plain (Str)
open Verif.Vocab (Vocab)
open Verif.Items (Settings Formatter construct split)
open Verif.Matrix (Mtx Valid entry)
open Verif.Flow (RetrieveRun retrieve contexts combined cosDistance)

section
variable (u : Tables) {s s' : Settings} {f : Formatter} {a : Layout} {tok : List Str}
variable (hf : construct s = .ok (s', f)) (hd : Describes s a) (htok : ∃ fmt x y, Dict.get? s "token" = some fmt ∧
    split '/' fmt = tok ++ [x, y]) {corpus : Corpus} (hl : ∀ F ∈ corpus, ∀ l ∈ F.2, Fine l)
include hf hd htok hl

/-- **C215** for texts: for every format of columns, the distance of two lines of the queries is the cosine distance of the combined vectors of
what stands within the spans on lines not separated from them; lines of one type with the same words around them have the same vector. -/
theorem C215_text {L R : Nat} (hR : R ≠ 0) {colv : Vocab Str} {qs : List Str} (hq : qs.Nodup)
    {st : Verif.Engine.State (Str × List Str) (Bool × Verif.Flow.Toks Str Verif.Items.Match Str) (Verif.Engine.TokRes (Verif.Flow.Toks Str Verif.Items.Match Str))}
    (h : RetrieveRun (asFormatter (reMatch u) f) L R colv qs (texts corpus) st) (hname : (a.tokens tok qs corpus).Nodup)
    {order : List Str → List Str} (horder : ∀ l, (order l).Perm l)
    (hctx : ∃ F xs i e c, a.At tok qs corpus F xs i e ∧ c ∈ contexts L R colv (xs.map Occ.colloc) i)
    {typeOf : Str → Str} (htype : ∀ F xs i e, a.At tok qs corpus F xs i e → typeOf e.name = e.type) :
    ∃ m, retrieve (asFormatter (reMatch u) f) (nameOf f) order (texts corpus).length st = some (.ok m) ∧
      ∀ (W so : Mtx Str ℝ) (ws : Verif.Matrix.Sp ℝ), Valid W → Valid so → W.body = .sp ws → Verif.Matrix.IsCsr so → W.cols = m.cols →
        (∀ c, c ∈ so.rows ↔ c ∈ m.cols) → so.cols ≠ [] →
        ∃ w, Assoc.computeTokenWeights typeOf (Cooc.toReal m) W = .ok w ∧
          ∀ norm, norm ≠ .other →
            ∃ v d, Assoc.computeTokenVectors w so .addition norm = .ok v ∧ Assoc.computeDistance v = .ok d ∧
              d.rows.Perm (a.tokens tok qs corpus) ∧ d.cols = d.rows ∧
              ∀ F xs i x G ys j y, a.At tok qs corpus F xs i x → a.At tok qs corpus G ys j y →
                ∀ ca cb, ca = contexts L R colv (xs.map Occ.colloc) i → cb = contexts L R colv (ys.map Occ.colloc) j →
                  entry d x.name x.name = 0 ∧
                  (x.name ≠ y.name → entry d x.name y.name = cosDistance so.cols (combined W so x.type ca) (combined W so y.type cb)) ∧
                  (x.type = y.type → (∀ c, c ∈ ca ↔ c ∈ cb) →
                    (∀ g, entry v x.name g = entry v y.name g) ∧
                    (∀ metric ∈ ["cityblock", "manhattan", "l1", "euclidean", "l2"],
                      ∃ e, Assoc.computeDistance v 0 metric = .ok e ∧ entry e x.name y.name = 0) ∧
                    ((∃ g ∈ so.cols, combined W so x.type ca g ≠ 0) → entry d x.name y.name = 0) ∧
                    ((∀ g ∈ so.cols, combined W so x.type ca g = 0) → x.name ≠ y.name → entry d x.name y.name = 1)) := by
  have hn := occNames_text u hf hd htok hl qs
  obtain ⟨G, ys, i, e, c, g1, g2⟩ := hctx
  obtain ⟨F, xs, x, k1, k2, _, _⟩ := at_occ u hf hd htok hl g1
  obtain ⟨m, m1, m2⟩ := Verif.Flow.C215_partial hR hq h (name := nameOf f) (hn ▸ hname) horder ⟨F, xs, i, x, c, k1, k2 ▸ g2⟩
    (typeOf := typeOf) (fun F xs i x ho => by
      obtain ⟨G, ys, e, j1, _, j3, j4⟩ := occ_at u hf hd htok hl ho
      rw [j3, j4]
      exact htype G ys i e j1)
  refine ⟨m, m1, fun W so ws h1 h2 h3 h4 h5 h6 h7 => ?_⟩
  obtain ⟨w, w1, w2⟩ := m2 W so ws h1 h2 h3 h4 h5 h6 h7
  refine ⟨w, w1, fun norm hno => ?_⟩
  obtain ⟨v, d, v1, d1, d2, d3, d4⟩ := w2 norm hno
  refine ⟨v, d, v1, d1, hn ▸ d2, d3, ?_⟩
  intro F xs i x G ys j y hx hy ca cb hca hcb
  obtain ⟨F', xs', x', k1, k2, k3, k4⟩ := at_occ u hf hd htok hl hx
  obtain ⟨G', ys', y', l1, l2, l3, l4⟩ := at_occ u hf hd htok hl hy
  have := d4 F' xs' i x' G' ys' j y' k1 l1 x.name y.name k3.symm l3.symm ca cb (by rw [k2]; exact hca) (by rw [l2]; exact hcb)
  rw [k4, l4] at this
  exact this

end

/-- Two sentences in the format of the tutorial: "old girls sit", "girls sit old". -/
def girlCorpus : Corpus := [("a.conll".toList,
  ["old\tJJ\told\t1\t2\tamod".toList, "girls\tNNS\tgirl\t2\t3\tnsubj".toList, "sit\tVBP\tsit\t3\t0\tROOT".toList, "</s>".toList,
   "girls\tNNS\tgirl\t1\t2\tnsubj".toList, "sit\tVBP\tsit\t2\t0\tROOT".toList, "old\tJJ\told\t3\t1\tamod".toList])]

/-- The two lines of the query have the same contexts, though at other places. -/
example : (∃ F xs i x G ys j y, tutorialLayout.At ["lemma".toList, "pos".toList] ["girl/N".toList] girlCorpus F xs i x ∧
      tutorialLayout.At ["lemma".toList, "pos".toList] ["girl/N".toList] girlCorpus G ys j y ∧ x.name = "girl/N/a/2".toList ∧ y.name = "girl/N/a/5".toList ∧
      x.type = y.type ∧ contexts 4 4 Vocab.empty (xs.map Occ.colloc) i = ["old/J".toList, "sit/V".toList] ∧
      contexts 4 4 Vocab.empty (ys.map Occ.colloc) j = ["sit/V".toList, "old/J".toList]) ∧
    (tutorialLayout.tokens ["lemma".toList, "pos".toList] ["girl/N".toList] girlCorpus).Nodup := by
  refine ⟨⟨_, [⟨"old/J".toList, "old/J".toList, "old/J/a/1".toList⟩, ⟨"girl/N".toList, "girl/N".toList, "girl/N/a/2".toList⟩,
      ⟨"sit/V".toList, "sit/V".toList, "sit/V/a/3".toList⟩], 1, _, _,
    [⟨"girl/N".toList, "girl/N".toList, "girl/N/a/5".toList⟩, ⟨"sit/V".toList, "sit/V".toList, "sit/V/a/6".toList⟩,
      ⟨"old/J".toList, "old/J".toList, "old/J/a/7".toList⟩], 0, _,
    ⟨List.mem_singleton.2 rfl, by decide +kernel, rfl, by decide +kernel⟩, ⟨List.mem_singleton.2 rfl, by decide +kernel, rfl, by decide +kernel⟩,
    rfl, rfl, rfl, by decide +kernel, by decide +kernel⟩, by decide +kernel⟩

end Verif.Regex
