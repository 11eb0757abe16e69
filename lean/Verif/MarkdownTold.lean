import Verif.MarkdownInk
/-!
# C120: every character of the strings of a document is in its Markdown
-/
set_option autoImplicit false
set_option linter.unusedSimpArgs false
namespace Verif

/-! ## Specification -/

/-- The characters of the strings of an inline. -/
def Inline.said : Inline → Str
  | .text t => t
  | .code c => c
  | .html h => h
  | .autolink l => l
  | .footnoteReference l => l
  | .link d t _ => d ++ t.getD []
  | .image d t a => d ++ t.getD [] ++ a
  | _ => []

/-- The characters of the strings of a block; the names of alerts are not among them, which are put in capitals. -/
def Block.said : Block → Str
  | .codeBlock (.fenced info) s => info.getD [] ++ s
  | .codeBlock .indented s => s
  | .htmlBlock s => s
  | .definition _ d t => d ++ t.getD []
  | .footnoteDefinition l _ => l
  | _ => []

/-- The characters of the strings of a document. -/
def Document.said (d : Document) : Str := d.allBlocks.flatMap Block.said ++ d.allInlines.flatMap Inline.said

namespace Md
namespace Told
open Md.Spec Clean InkLen
open Latex (ink ink_append squeeze_app ink_lay)

variable {q : Char → Bool}

/-- The characters of `t` that count. -/
def n (q : Char → Bool) (t : Str) : Nat := (squeeze q t).length

theorem n_app (a b : Str) : n q (a ++ b) = n q a + n q b := by simp [n, squeeze_app]
theorem n_nil : n q [] = 0 := rfl
theorem n_cons (c : Char) (b : Str) : n q (c :: b) = n q [c] + n q b := n_app [c] b

/-- The characters of inlines that count. -/
def ins (q : Char → Bool) (l : List Inline) : Nat := ((Inline.preL l).map fun i => n q i.said).sum

/-- No reference has its own text as label. -/
def Distinct (l : List Inline) : Prop := ∀ m, Inline.linkReference m m ∉ l

theorem Distinct.sub {a b : List Inline} (f : Distinct a) (k : ∀ c ∈ b, c ∈ a) : Distinct b := fun m hm => f m (k _ hm)

theorem ins_append (l m : List Inline) : ins q (l ++ m) = ins q l + ins q m := by
  induction l with
  | nil => simp [ins, Inline.preL]
  | cons i l ih => simp [ins, Inline.preL] at ih ⊢; omega

theorem title_n (t : Option Str) : n q (t.getD []) ≤ n q (title t) := by
  cases t with
  | none => simp [n_nil]
  | some t => simp only [title, Option.getD, n_app]; omega

theorem source_n (hq : ∀ c, isWs c = true → q c = true) :
    (∀ i, Distinct (Inline.pre i) → (i.pre.map fun i => n q i.said).sum ≤ n q (inlineSource (collapse false) i)) ∧
    ∀ l, Distinct (Inline.preL l) → ins q l ≤ n q (lineSource l) := by
  have tl : ∀ {b : Inline} {l : List Inline}, Distinct (b :: l) → Distinct l := fun f => f.sub fun c hc => List.mem_cons_of_mem _ hc
  apply Inline.ind
  case text =>
    intro t _
    simp [inlineSource, Inline.pre, Inline.said, n, collapse_squeeze hq]
  case link =>
    intro d t c ih k
    have := title_n (q := q) t
    have h := ih (tl k)
    simp only [inlineSource, Inline.pre, Inline.said, List.map_cons, List.sum_cons, n_app, ins, lineSource] at h ⊢
    omega
  case image =>
    intro d t a _
    have := title_n (q := q) t
    simp only [inlineSource, Inline.pre, Inline.said, List.map_cons, List.map_nil, List.sum_cons, List.sum_nil, n_app]
    omega
  case linkReference =>
    intro l t h1 h2 k
    have g1 := h1 (k.sub fun c hc => by simp only [Inline.pre, List.mem_cons, List.mem_append]; simp [hc])
    have g2 := h2 (k.sub fun c hc => by simp only [Inline.pre, List.mem_cons, List.mem_append]; simp [hc])
    have hne : l ≠ t := by
      rintro rfl
      exact k l (by simp [Inline.pre])
    simp only [inlineSource, if_neg hne, Inline.pre, Inline.said, List.map_cons, List.map_append, List.sum_append, List.sum_cons, n_app, n_nil,
      ins, lineSource] at g1 g2 ⊢
    omega
  case nil => intro _; simp [ins, Inline.preL]
  case cons =>
    intro i l h1 h2 k
    have g1 := h1 (k.sub fun c hc => List.mem_append_left _ hc)
    have g2 := h2 (k.sub fun c hc => List.mem_append_right _ hc)
    simp only [lineSource, inlinesSource, Inline.preL, ins, List.map_append, List.sum_append, n_app] at g1 g2 ⊢
    omega
  case emphasis =>
    intro c ih k
    have h := ih (tl k)
    simp only [inlineSource, Inline.pre, Inline.said, List.map_cons, List.sum_cons, n_app, n_nil, ins, lineSource] at h ⊢
    omega
  case strong =>
    intro c ih k
    have h := ih (tl k)
    simp only [inlineSource, Inline.pre, Inline.said, List.map_cons, List.sum_cons, n_app, n_nil, ins, lineSource] at h ⊢
    omega
  case strikethrough =>
    intro c ih k
    have h := ih (tl k)
    simp only [inlineSource, Inline.pre, Inline.said, List.map_cons, List.sum_cons, n_app, n_nil, ins, lineSource] at h ⊢
    omega
  all_goals
    intros
    simp only [inlineSource, Inline.pre, Inline.said, List.map_cons, List.map_nil, List.sum_cons, List.sum_nil, n_app, n_nil]
    try omega

theorem inl_n (hq : ∀ c, isWs c = true → q c = true) (dg : Char → Bool) (l : List Inline) (k : Distinct (Inline.preL l)) :
    ins q l ≤ (ink q (inlinesPieces dg l)).length := by
  rw [(inline_source hq dg).2]
  exact (source_n hq).2 l k

/-! ## Tables -/

theorem join_n (s : Str) (l : List Str) : (l.map (n q)).sum ≤ n q (joinWith s l) := by
  fun_induction joinWith s l with
  | case1 => simp
  | case2 x => simp
  | case3 x y l ih => simp only [List.map_cons, List.sum_cons, n_app] at ih ⊢; omega

theorem line_n (hq : ∀ c, isWs c = true → q c = true) (al : List Alignment) (g : Nat → Nat) (r : List (List Inline))
    (k : ∀ c ∈ r, Distinct (Inline.preL c)) :
    ins q r.flatten ≤ n q (Spec.row ((r.map lineSource).mapIdx fun i c => pad (al[i]?.getD .none) (g i) c)) := by
  have h := row_squeeze (q := q) (a := (r.map lineSource).mapIdx fun i c => pad (al[i]?.getD .none) (g i) c)
    (b := r.map lineSource) (cells_squeeze hq _ _ _)
  rw [n, h]
  have h1 : ins q r.flatten ≤ ((r.map lineSource).map (n q)).sum := by
    induction r with
    | nil => simp [ins, Inline.preL]
    | cons c r ih =>
      have h1 := (source_n hq).2 c (k c (by simp))
      have h2 := ih (fun d hd => k d (by simp [hd])) (row_squeeze (cells_squeeze hq _ _ _))
      rw [List.flatten_cons, ins_append]
      simp only [List.map_cons, List.sum_cons]
      omega
  have h2 := join_n (q := q) cs!" | " (r.map lineSource)
  rw [← n]
  simp only [Spec.row, n_app]
  omega

theorem rows_n (hq : ∀ c, isWs c = true → q c = true) (al : List Alignment) (g : Nat → Nat) (rows : List (List (List Inline)))
    (k : ∀ r ∈ rows, ∀ c ∈ r, Distinct (Inline.preL c)) :
    ins q rows.flatten.flatten ≤
      (rows.map fun r => n q (Spec.row ((r.map lineSource).mapIdx fun i c => pad (al[i]?.getD .none) (g i) c))).sum := by
  induction rows with
  | nil => simp [ins, Inline.preL]
  | cons r rows ih =>
    have h1 := line_n hq al g r (k r (by simp))
    have h2 := ih fun u hu => k u (by simp [hu])
    rw [List.flatten_cons, List.flatten_append, ins_append]
    simp only [List.map_cons, List.sum_cons]
    omega

theorem table_n (hq : ∀ c, isWs c = true → q c = true) (al : List Alignment) (rows : List (List (List Inline)))
    (k : ∀ r ∈ rows, ∀ c ∈ r, Distinct (Inline.preL c)) :
    ins q rows.flatten.flatten ≤ n q (joinWith cs!"\n" (anyTableLines al (rows.map (·.map lineSource)))) := by
  refine Nat.le_trans ?_ (join_n _ _)
  cases rows with
  | nil => simp [ins, Inline.preL]
  | cons r rows =>
    simp only [List.map_cons, anyTableLines, List.sum_cons, List.map_map, Function.comp_def]
    generalize widthOf al (r.map lineSource :: rows.map (·.map lineSource)) = g
    have h1 := line_n hq al g r (k r (by simp))
    have h2 := rows_n hq al g rows fun u hu => k u (by simp [hu])
    rw [List.flatten_cons, List.flatten_append, ins_append]
    omega

/-! ## Blocks -/

/-- What a block says. -/
def tell (q : Char → Bool) (b : Block) : Nat := n q b.said + ins q b.directInlines

/-- What blocks say. -/
def tells (q : Char → Bool) (l : List Block) : Nat := (l.map (tell q)).sum

theorem tells_append (a b : List Block) : tells q (a ++ b) = tells q a + tells q b := by simp [tells]
theorem tells_cons (a : Block) (b : List Block) : tells q (a :: b) = tell q a + tells q b := by simp [tells]
theorem tells_nil : tells q [] = 0 := rfl
theorem ins_nil : ins q [] = 0 := rfl

/-- No reference in the blocks has its own text as label. -/
def Clear (l : List Block) : Prop := ∀ b ∈ l, Distinct (Inline.preL b.directInlines)

theorem Clear.sub {a b : List Block} (f : Clear a) (k : ∀ c ∈ b, c ∈ a) : Clear b := fun c hc => f c (k c hc)

theorem sum_le {α : Type} (l : List α) (f g : α → Nat) (h : ∀ a ∈ l, f a ≤ g a) : (l.map f).sum ≤ (l.map g).sum := by
  induction l with
  | nil => simp
  | cons a l ih =>
    have h1 := h a (by simp)
    have h2 := ih fun b hb => h b (by simp [hb])
    simp only [List.map_cons, List.sum_cons]
    omega

theorem lines_n (hq : ∀ c, isWs c = true → q c = true) (s : Str) : n q s = ((rustLines s).map (n q)).sum := by
  rw [n, ← lines_squeeze hq s, List.length_flatten, List.map_map]
  rfl

theorem quote_n (hq : ∀ c, isWs c = true → q c = true) (s : Str) : n q s ≤ (ink q (quotePieces (rustLines s))).length := by
  rw [lines_n hq, quotePieces]
  split
  · rename_i h; rw [h]; simp
  · rw [ink_onLines, List.length_flatten, List.map_map, List.map_map]
    refine sum_le _ _ _ fun l _ => ?_
    simp only [Function.comp, ink, List.length_append, n]
    omega

theorem alert_n (hq : ∀ c, isWs c = true → q c = true) (s : Str) :
    n q s ≤ ((rustLines s).map fun l => ink q [.word (Spec.alertLine l)]).flatten.length := by
  rw [lines_n hq, List.length_flatten, List.map_map]
  refine sum_le _ _ _ fun l _ => ?_
  simp only [Function.comp, ink, Spec.alertLine, List.append_nil]
  split
  · rename_i h
    rw [n, ws_squeeze hq l (by simpa using h)]
    simp
  · simp only [squeeze_app, List.length_append, n]
    omega

theorem block_n (hq : ∀ c, isWs c = true → q c = true) (dw : Str → Nat) (w : Nat) (y : Style) :
    (∀ b, Clear b.pre → ∀ ind col, tells q b.pre ≤ (inkP q (blockPieces dw w y ind col b)).length) ∧
    (∀ i, Clear (ListItem.pre i) → ∀ ind col, tells q (ListItem.pre i) ≤ (inkP q (contentPieces dw w y ind col i)).length) ∧
    (∀ l, Clear (Block.preL l) → ∀ ind col first,
      tells q (Block.preL l) ≤ (inkP q (blocksPieces dw w y ind col first l)).length) ∧
    ∀ l, Clear (ListItem.preL l) → ∀ k i inner ind col,
      tells q (ListItem.preL l) ≤ (inkP q (itemsPieces dw w y k inner ind i col l)).length := by
  have tl : ∀ {b : Block} {l : List Block}, Clear (b :: l) → Clear l := fun f => f.sub fun c hc => List.mem_cons_of_mem _ hc
  have inl := inl_n hq y.digit
  have dir : ∀ {b : Block} {l : List Block}, Clear (b :: l) → Distinct (Inline.preL b.directInlines) := fun f => f _ (List.mem_cons_self ..)
  apply Block.ind
  case paragraph =>
    intro c k _ _
    have := inl c (dir k)
    simp only [blockPieces, inkP_at, Block.pre, tells_cons, tells_nil, tell, Block.directInlines, Block.said, n_nil]
    omega
  case heading =>
    intro v c k _ _
    have := inl c (dir k)
    cases v <;>
      simp only [blockPieces, inkP_at, ink_append, ink_unbroken hq, List.length_append, Block.pre, tells_cons, tells_nil, tell,
        Block.directInlines, Block.said, n_nil] <;> omega
  case definition =>
    intro l d t k _ _
    have := inl l (dir k)
    have h2 := title_n (q := q) t
    have h1 : (squeeze q (d ++ title t)).length = n q d + n q (title t) := n_app _ _
    simp only [blockPieces, inkP_at, ink_append, ink, List.length_append, List.length_nil, Block.pre, tells_cons, tells_nil, tell,
      Block.directInlines, Block.said, n_app, h1]
    omega
  case blockQuote =>
    intro b ih k ind col
    have h0 := ih (tl k) 0 0 true
    have e := quote_n hq (lay dw (w - col - 2) 0 (blocksPieces dw w y 0 0 true b))
    rw [n, ink_lay hq, ← inkP] at e
    simp only [blockPieces, inkP_at, Block.pre, tells_cons, tell, Block.said, Block.directInlines, n_nil, ins_nil]
    omega
  case githubAlert =>
    intro v b ih k _ _
    have h0 := ih (tl k) 0 0 true
    have e := alert_n hq (lay dw 80 0 (blocksPieces dw w y 0 0 true b))
    rw [n, ink_lay hq, ← inkP] at e
    simp only [blockPieces, inkP_at, ink_onLines, List.map_cons, List.map_map, List.flatten_cons, Function.comp_def, Block.pre, tells_cons,
      tell, Block.said, Block.directInlines, n_nil, ins_nil]
    rw [List.length_append]
    omega
  case list =>
    intro v i ih k _ _
    simp only [blockPieces, Block.pre, tells_cons, tell, Block.said, Block.directInlines, n_nil, ins_nil]
    exact Nat.le_trans (by omega) (ih (tl k) v 0 _ _ _)
  case table =>
    intro rows al k ind col
    have := table_n hq al rows fun r hr c hc => (dir k).sub fun i hi => by
      simp only [Block.directInlines]
      exact Latex.preL_flatten (List.mem_flatten.2 ⟨r, hr, hc⟩) hi
    simp only [blockPieces, Block.pre, tells_cons, tells_nil, tell, Block.directInlines, Block.said, n_nil]
    split
    · rename_i e; subst e; simp [ins, Inline.preL]
    · simp only [inkP_at, ink, List.append_nil]
      rw [← n]
      omega
  case footnoteDefinition =>
    intro l b ih k ind col
    have h0 := ih (tl k) ind (col + dw (cs!"[^" ++ l ++ cs!"]: ")) true
    have e : ∀ p ps, (inkP q ((ind, .word p) :: ps)).length = n q p + (inkP q ps).length := fun _ _ => by simp [inkP, ink, n]
    simp only [blockPieces, e, n_app, Block.pre, tells_cons, tell, Block.said, Block.directInlines, ins_nil]
    omega
  case codeBlock =>
    intro v t _ _ _
    cases v with
    | fenced info =>
      have e : ∀ a b c : Str, (ink q [.word a, .word b, .word c]).length = n q a + n q b + n q c := fun _ _ _ => by simp [ink, n]; omega
      simp only [blockPieces, inkP_at, e, n_app, Block.pre, tells_cons, tells_nil, tell, Block.said, Block.directInlines, ins_nil]
      omega
    | indented =>
      have h := join_n (q := q) cs!"\n" ((rustLines t).map fun l => cs!"    " ++ l)
      have e : (((rustLines t).map fun l => cs!"    " ++ l).map (n q)).sum = n q t := by
        rw [n, ← lines_squeeze hq t, List.length_flatten, List.map_map, List.map_map]
        congr 1
        refine List.map_congr_left fun s _ => ?_
        simp only [Function.comp, n, squeeze_app, ws_squeeze hq cs!"    " (by decide), List.nil_append]
      have e' : ∀ a : Str, (ink q [.word a]).length = n q a := fun _ => by simp [ink, n]
      have h2 := Nat.le_trans (Nat.le_of_eq e.symm) h
      simp only [blockPieces, inkP_at, e', Block.pre, tells_cons, tells_nil, tell, Block.said, Block.directInlines, ins_nil]
      exact h2
  case htmlBlock =>
    intro t _ _ _
    have e' : ∀ a : Str, (ink q [.word a]).length = n q a := fun _ => by simp [ink, n]
    simp only [blockPieces, inkP_at, e', Block.pre, tells_cons, tells_nil, tell, Block.said, Block.directInlines, ins_nil]
    omega
  case item =>
    intro t b ih k ind col
    simp only [contentPieces, ListItem.pre]
    exact ih k _ _ _
  case nilB => intros; simp [Block.preL, tells]
  case consB =>
    intro b l ihb ihl k ind col first
    have h1 := ihb (k.sub fun c hc => List.mem_append_left _ hc) ind col
    have h2 := ihl (k.sub fun c hc => List.mem_append_right _ hc) ind ind false
    simp only [blocksPieces, inkP_append, List.length_append, Block.preL, tells_append]
    omega
  case nilI => intros; simp [ListItem.preL, tells]
  case consI =>
    intro b l ihb ihl k v i inner ind col
    have h1 := ihb (k.sub fun c hc => List.mem_append_left _ hc) inner (col + itemColumns y.spaces v i b.task)
    have h2 := ihl (k.sub fun c hc => List.mem_append_right _ hc) v (i + 1) inner ind ind
    simp only [itemsPieces, inkP_append, List.length_append, ListItem.preL, tells_append]
    omega
  all_goals
    intros
    simp [Block.pre, tells, tell, Block.said, Block.directInlines, n, squeeze, ins, Inline.preL]

theorem tells_total (d : Document) : n q d.said = tells q (Block.preL d.blocks) := by
  have h2 : ∀ l : List Block, tells q l = n q (l.flatMap Block.said) + n q ((l.flatMap fun b => Inline.preL b.directInlines).flatMap Inline.said) := by
    have h1 : ∀ l : List Inline, (l.map fun i => n q i.said).sum = n q (l.flatMap Inline.said) := by
      intro l
      induction l with
      | nil => simp [n_nil]
      | cons i l ih => simp only [List.map_cons, List.sum_cons, ih, List.flatMap_cons, n_app]
    intro l
    induction l with
    | nil => simp [tells, n_nil]
    | cons b l ih =>
      rw [tells_cons, ih, tell, ins, h1]
      simp only [List.flatMap_cons, List.flatMap_append, n_app]
      omega
  rw [Document.said, n_app]
  exact (h2 d.allBlocks).symm

theorem count_n (c : Char) (t : Str) : t.count c = n (fun x => x != c) t := by
  rw [n, squeeze, List.count_eq_length_filter]
  congr 1
  refine List.filter_congr fun x _ => ?_
  simp [bne]

end Told

/-- **C120.** Every character but whitespace is in the Markdown text of a document at least as often as in the strings of the
document, provided that no reference has its own text as label (of which one is printed). -/
theorem C120_told (x : Ext) (cfg : Config) {d : Document} {s : Str} (hd : ∀ t, ¬ d.HasInline (.linkReference t t))
    (hs : renderMarkdown x cfg d = some s) {c : Char} (hc : isWs c = false) :
    d.said.count c ≤ s.count c := by
  rw [Exact.C86_exact] at hs
  have hk : Told.Clear (Block.preL d.blocks) := fun b hb m hm => hd m (by
    rw [← Document.mem_allInlines]
    exact List.mem_flatMap.2 ⟨b, hb, hm⟩)
  have hq : ∀ a, isWs a = true → (fun x => x != c) a = true := fun a ha => by
    have : a ≠ c := by rintro rfl; simp [ha] at hc
    simpa using this
  have h := (Told.block_n (q := fun x => x != c) hq x.dw cfg.width (style x cfg)).2.2.1 d.blocks hk 0 0 true
  rw [Told.count_n, Told.count_n, Told.tells_total, hs.2]
  unfold Told.n Spec.markdownText
  rw [Latex.ink_lay hq]
  exact h

/-- **C120**, a document with nested lists, quote, alert, table, code and a link reference that meets the hypotheses; and a reference
whose text is its label, which is printed once. -/
theorem C120_example :
    let x := Ext.ascii
    let d : Document := ⟨[
      .heading (.atx 3) [.text cs!"zza > b", .emphasis [.code cs!"x - z"]],
      .list (.ordered 9) [.mk none [.paragraph [.link cs!"/z" (some cs!"t") [.text cs!"c"]], .list (.bullet .star) [.mk (some .complete) [.blockQuote [.paragraph [.text cs!"q"]]]]],
        .mk none [.codeBlock (.fenced (some cs!"rz")) cs!"let z;"]],
      .githubAlert (.custom cs!"beware") [.paragraph [.linkReference [.text cs!"z"] [.code cs!"z"]]],
      .table [[[.text cs!"h"], []], [[], [.text cs!"z"]]] [.left, .center]]⟩
    let r : Document := ⟨[.paragraph [.linkReference [.text cs!"z"] [.text cs!"z"]]]⟩
    (∀ t, ¬ d.HasInline (.linkReference t t)) ∧ d.said.count 'z' = 9 ∧
    ((renderMarkdown x Config.default d).getD []).count 'z' = 9 ∧
    r.said.count 'z' = 2 ∧ renderMarkdown x Config.default r = some cs!"[z]" := by
  refine ⟨fun t => ?_, ?_, ?_, ?_, ?_⟩
  · rw [← Document.mem_allInlines]
    simp [Document.allInlines, Document.allBlocks, Block.preL, Block.pre, ListItem.preL, ListItem.pre, Inline.preL, Inline.pre, Block.directInlines]
    try grind
  all_goals decide +kernel

end Md
end Verif
