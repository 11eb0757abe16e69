import Verif.RoundTripKey
import Verif.PrinterWords
/-!
# Documents with the same key are printed alike
-/
set_option linter.unusedVariables false
set_option linter.unusedSimpArgs false
namespace Verif
namespace Md
open Nom Spec

theorem splitGo_collapse (s : Str) : ∀ (word : Str) (res : List (Option Str)),
    Latex.splitGo (collapse (word.isEmpty && decide (res.getLast? = some none)) s) word res =
      Latex.splitGo s word res := by
  induction s with
  | nil => intro word res; rfl
  | cons c s ih =>
    intro word res
    by_cases hc : isWs c = true
    · simp only [collapse, hc, if_true]
      by_cases hw : word = []
      · subst hw
        simp only [List.isEmpty_nil, Bool.true_and, decide_eq_true_eq]
        cases hr : res.getLast? with
        | none =>
          simp only [reduceCtorEq, if_false, Latex.splitGo, isWs_sp, hc, if_true, List.isEmpty_nil, hr]
          rw [← ih [] (res ++ [none])]
          simp
        | some o =>
          cases o with
          | none =>
            simp only [if_true, Latex.splitGo, hc, List.isEmpty_nil, hr]
            rw [← ih [] res]
            simp [hr]
          | some w =>
            simp only [Option.some.injEq, reduceCtorEq, if_false, Latex.splitGo, isWs_sp, hc, if_true, List.isEmpty_nil, hr]
            rw [← ih [] (res ++ [none])]
            simp
      · have : word.isEmpty = false := by simpa using hw
        simp only [this, Bool.false_and, Bool.false_eq_true, if_false, Latex.splitGo, isWs_sp, hc, if_true,
          List.getLast?_concat]
        rw [← ih [] (res ++ [some word] ++ [none])]
        simp
    · simp only [collapse, hc, Bool.false_eq_true, if_false, Latex.splitGo]
      rw [← ih (word ++ [c]) res]
      have : (word ++ [c]).isEmpty = false := by cases word <;> rfl
      simp [this]

/-- The printed form of a text depends only on the text up to runs of whitespace. -/
theorem textDoc_collapse {x : Ext} {nl : Bool} {t u : Str} (h : collapse false t = collapse false u) :
    textDoc x nl t = textDoc x nl u := by
  have k : ∀ t, splitWithSpaces (Latex.nlToSpace t) = splitWithSpaces (collapse false t) := by
    intro t
    have := splitGo_collapse (Latex.nlToSpace t) [] []
    simp only [List.isEmpty_nil, Bool.true_and, List.getLast?_nil, reduceCtorEq, decide_false, collapse_nlToSpace] at this
    exact this.symm
  simp only [textDoc, k, h]

theorem key_inlineDoc (x : Ext) (nl : Bool) :
    (∀ i j, keyInline i = keyInline j → inlineDoc x nl i = inlineDoc x nl j) ∧
    ∀ l m, keyInlines l = keyInlines m → inlineDocs x nl l = inlineDocs x nl m := by
  refine Inline.ind ?text ?lineBreak ?code ?html ?link ?linkReference ?image ?emphasis ?strong ?strikethrough
    ?autolink ?footnoteReference ?empty ?nil ?cons
  case text =>
    intro t j h
    cases j with
    | text u => simp only [keyInline] at h; injection h with h; exact textDoc_collapse h
    | _ => simp only [keyInline] at h <;> (try (split at h)) <;> simp at h
  case linkReference =>
    intro l t ihl iht j h
    cases j with
    | linkReference l' t' =>
      obtain ⟨h1, h2, h3⟩ := key_reference h
      simp only [inlineDoc, h3]
      rw [ihl _ h1, iht _ h2]
    | _ => simp only [keyInline] at h; split at h <;> simp at h
  case nil =>
    intro m h
    cases m with
    | nil => rfl
    | cons j m => simp [keyInlines] at h
  case cons =>
    intro i l ih ihl m h
    cases m with
    | nil => simp [keyInlines] at h
    | cons j m =>
      simp only [keyInlines] at h
      injection h with h1 h2
      simp only [inlineDocs]
      rw [ih j h1, ihl m h2]
  all_goals
    intros
    rename_i j h
    cases j <;> simp only [keyInline] at h <;> (try (split at h)) <;> (try simp at h) <;> simp only [inlineDoc] <;> grind

theorem key_inlinesDoc {x : Ext} {nl : Bool} {l m : List Inline} (h : keyInlines l = keyInlines m) :
    inlinesDoc x nl l = inlinesDoc x nl m := by
  simp only [inlinesDoc, (key_inlineDoc x nl).2 l m h]

theorem key_tableContent {x : Ext} : ∀ {a b : List (List (List Inline))},
    a.map (·.map keyInlines) = b.map (·.map keyInlines) → tableContent x a = tableContent x b := by
  have row : ∀ (a b : List (List Inline)), a.map keyInlines = b.map keyInlines →
      a.map (renderCell x) = b.map (renderCell x) := by
    intro a
    induction a with
    | nil => intro b h; cases b <;> simp_all
    | cons c a ih =>
      intro b h
      cases b with
      | nil => simp at h
      | cons d b =>
        simp at h
        simp [renderCell, key_inlinesDoc h.1, ih _ h.2]
  intro a
  induction a with
  | nil => intro b h; cases b <;> simp_all
  | cons c a ih =>
    intro b h
    cases b with
    | nil => simp at h
    | cons d b =>
      rw [List.map_cons, List.map_cons] at h
      injection h with h1 h2
      simp only [tableContent, List.map_cons] at ih ⊢
      rw [row _ _ h1, ih h2]

theorem key_isList {b c : Block} (h : keyBlock b = keyBlock c) : isList b = isList c := by
  cases b <;> cases c <;> simp [keyBlock] at h <;> rfl

theorem key_length : ∀ {l m : List ListItem}, keyItems l = keyItems m → l.length = m.length := by
  intro l
  induction l with
  | nil => intro m h; cases m <;> simp_all [keyItems]
  | cons i l ih =>
    intro m h
    cases m with
    | nil => simp [keyItems] at h
    | cons j m =>
      simp only [keyItems] at h
      injection h with h1 h2
      simp [ih h2]

theorem key_blockDoc (x : Ext) (cfg : Config) :
    (∀ b c, keyBlock b = keyBlock c → blockDoc x cfg b = blockDoc x cfg c) ∧
    (∀ i j, keyItem i = keyItem j → itemBlocksDoc x cfg i = itemBlocksDoc x cfg j ∧ i.task = j.task) ∧
    (∀ l m, keyBlocks l = keyBlocks m → ∀ first acc, blocksDoc x cfg first acc l = blocksDoc x cfg first acc m) ∧
    ∀ l m, keyItems l = keyItems m → ∀ k pl n, itemDocs x cfg k pl n l = itemDocs x cfg k pl n m := by
  have hi := @key_inlinesDoc x
  have empty : ∀ {l m : List Block}, keyBlocks l = keyBlocks m → l.isEmpty = m.isEmpty := by
    intro l m h
    cases l <;> cases m <;> simp_all [keyBlocks]
  refine Block.ind ?paragraph ?heading ?thematicBreak ?blockQuote ?list ?codeBlock ?htmlBlock ?definition ?table
    ?footnoteDefinition ?githubAlert ?empty ?item ?nilB ?consB ?nilI ?consI
  case table =>
    intro r a c h
    cases c with
    | table r' a' =>
      simp only [keyBlock] at h
      injection h with h1 h2
      simp only [blockDoc, tableDoc, key_tableContent h1, h2]
    | _ => simp [keyBlock] at h
  case heading =>
    intro k l c h
    cases c with
    | heading k' l' =>
      simp only [keyBlock] at h
      injection h with h1 h2
      simp only [blockDoc, headingDoc, h1, hi h2]
    | _ => simp [keyBlock] at h
  case list =>
    intro k l ih c h
    cases c with
    | list k' l' =>
      simp only [keyBlock] at h
      injection h with h1 h2
      simp only [blockDoc, h1, key_length h2, ih _ h2]
    | _ => simp [keyBlock] at h
  case githubAlert =>
    intro k l ih c h
    cases c with
    | githubAlert k' l' =>
      simp only [keyBlock] at h
      injection h with h1 h2
      simp only [blockDoc, h1, empty h2, ih _ h2]
    | _ => simp [keyBlock] at h
  case nilB => intro m h; cases m <;> simp_all [keyBlocks]
  case nilI => intro m h; cases m <;> simp_all [keyItems]
  case consB =>
    intro b l ih ihl m h first acc
    cases m with
    | nil => simp [keyBlocks] at h
    | cons j m =>
      simp only [keyBlocks] at h
      injection h with h1 h2
      simp only [blocksDoc]
      rw [ih j h1]
      have : separate cfg acc b = separate cfg acc j := by simp only [separate, key_isList h1]
      rw [this]
      split
      · rfl
      · exact ihl m h2 _ _
  case consI =>
    intro b l ih ihl m h k pl n
    cases m with
    | nil => simp [keyItems] at h
    | cons j m =>
      simp only [keyItems] at h
      injection h with h1 h2
      simp only [itemDocs]
      rw [(ih j h1).1, (ih j h1).2]
      simp only [ihl m h2]
  case item =>
    intro t b ih j h
    cases j with
    | mk t' b' =>
      simp only [keyItem] at h
      injection h with h1 h2
      simp only [itemBlocksDoc]
      exact ⟨ih _ h2 _ _, h1⟩
  all_goals
    intros
    rename_i j h
    cases j <;> simp only [keyBlock] at h <;> (try simp at h) <;> simp only [blockDoc] <;> grind

/-- Documents with the same key are printed alike. -/
theorem key_render {x : Ext} {cfg : Config} {d e : Document} (h : keyBlocks d.blocks = keyBlocks e.blocks) :
    renderMarkdown x cfg d = renderMarkdown x cfg e := by
  simp only [renderMarkdown, (key_blockDoc x cfg).2.2.1 _ _ h]

end Md
end Verif
