import Verif.HtmlSafe
import Verif.TransformProps
/-!
# C105: rewriting addresses rewrites those of the HTML, except for those of definitions
-/
set_option autoImplicit false
namespace Verif

/-! ## Specification -/

/-- All addresses of a document rewritten, with the three functions that there are for it. -/
def Document.rewriteAddresses (f : Str → Str) (d : Document) : Document :=
  ((d.transformLinkUrls f).transformImageUrls f).transformAutolinkUrls f

/-! ## Proof -/

theorem address_iff {i : Inline} {u : Str} : i.address = some u ↔
    ∃ k ∈ [Target.linkUrl, .imageUrl, .autolink], k.ofInline i = some u := by
  cases i <;> simp [Inline.address, Target.ofInline]

theorem has_address {d : Document} {u : Str} : (∃ i, d.HasInline i ∧ i.address = some u) ↔
    ∃ k ∈ [Target.linkUrl, .imageUrl, .autolink], u ∈ (d.strings k).1 := by
  simp only [Document.strings, List.mem_filterMap, Document.mem_allInlines, address_iff]
  constructor
  · rintro ⟨i, h1, k, h2, h3⟩; exact ⟨k, h2, i, h1, h3⟩
  · rintro ⟨k, h2, i, h1, h3⟩; exact ⟨i, h1, k, h2, h3⟩

theorem rewrite_strings (f : Str → Str) (d : Document) :
    (∀ k ∈ [Target.linkUrl, .imageUrl, .autolink], ((d.rewriteAddresses f).strings k).1 = (d.strings k).1.map f) ∧
    (d.rewriteAddresses f).strings .html = d.strings .html := by
  have a := C15_exact .linkUrl f d
  have b := C15_exact .imageUrl f (d.transform .linkUrl f)
  have c := C15_exact .autolink f ((d.transform .linkUrl f).transform .imageUrl f)
  have e : d.rewriteAddresses f = ((d.transform .linkUrl f).transform .imageUrl f).transform .autolink f := rfl
  rw [e]
  refine ⟨?_, ?_⟩
  · intro k hk
    simp only [List.mem_cons, List.not_mem_nil, or_false] at hk
    rcases hk with rfl | rfl | rfl
    · rw [c.2.1 _ (by decide), b.2.1 _ (by decide), a.1]
    · rw [c.2.1 _ (by decide), b.1, a.2.1 _ (by decide)]
    · rw [c.1, b.2.1 _ (by decide), a.2.1 _ (by decide)]
  · rw [c.2.1 _ (by decide), b.2.1 _ (by decide), a.2.1 _ (by decide)]

/-- A block without its content. -/
def Block.bare : Block → Option (Sum Str Str)
  | .definition _ u _ => some (.inl u)
  | .githubAlert (.custom n) _ => some (.inr n)
  | _ => none

theorem bare_transform (k : Target) (f : Str → Str) (d : Document) :
    (d.transform k f).allBlocks.filterMap Block.bare = d.allBlocks.filterMap Block.bare := by
  rw [Document.transform_eq, Document.allBlocks_mapNodes (Target.setBlock_childBlocks f k), List.filterMap_map]
  congr 1
  funext b
  simp only [Function.comp_apply, Block.mapNodes_unfold]
  cases b with
  | githubAlert t b => cases t <;> cases k <;> rfl
  | _ => cases k <;> rfl

theorem bare_rewrite (f : Str → Str) (d : Document) :
    (d.rewriteAddresses f).allBlocks.filterMap Block.bare = d.allBlocks.filterMap Block.bare := by
  have e : d.rewriteAddresses f = ((d.transform .linkUrl f).transform .imageUrl f).transform .autolink f := rfl
  rw [e, bare_transform, bare_transform, bare_transform]

theorem bare_definition_iff {d : Document} {u : Str} : (∃ l t, d.HasBlock (.definition l u t)) ↔
    Sum.inl u ∈ d.allBlocks.filterMap Block.bare := by
  simp only [List.mem_filterMap, Document.mem_allBlocks]
  constructor
  · rintro ⟨l, t, h⟩; exact ⟨_, h, rfl⟩
  · rintro ⟨b, h, e⟩
    cases b with
    | definition l u' t =>
      simp only [Block.bare, Option.some.injEq, Sum.inl.injEq] at e
      subst e
      exact ⟨_, _, h⟩
    | githubAlert t b => cases t <;> simp [Block.bare] at e
    | _ => simp [Block.bare] at e

theorem bare_alert_iff {d : Document} {n : Str} : (∃ b, d.HasBlock (.githubAlert (.custom n) b)) ↔
    Sum.inr n ∈ d.allBlocks.filterMap Block.bare := by
  simp only [List.mem_filterMap, Document.mem_allBlocks]
  constructor
  · rintro ⟨b, h⟩; exact ⟨_, h, rfl⟩
  · rintro ⟨b, h, e⟩
    cases b with
    | githubAlert t b =>
      cases t <;> simp only [Block.bare, Option.some.injEq, Sum.inr.injEq, reduceCtorEq] at e
      subst e
      exact ⟨_, h⟩
    | _ => simp [Block.bare] at e

theorem no_html_iff {d : Document} : ((∀ s, ¬ d.HasInline (.html s)) ∧ ∀ s, ¬ d.HasBlock (.htmlBlock s)) ↔
    d.strings .html = ([], []) := by
  simp only [Document.strings, Prod.mk.injEq, List.filterMap_eq_nil_iff, Document.mem_allBlocks, Document.mem_allInlines]
  constructor
  · rintro ⟨h1, h2⟩
    refine ⟨fun i hi => ?_, fun b hb => ?_⟩
    · cases i <;> first | rfl | exact absurd hi (h1 _)
    · cases b <;> first | rfl | exact absurd hb (h2 _)
  · rintro ⟨h1, h2⟩
    exact ⟨fun s hs => (by have := h1 _ hs; simp [Target.ofInline] at this),
      fun s hs => (by have := h2 _ hs; simp [Target.ofBlock] at this)⟩

theorem clean_rewrite {d : Document} (h : Html.Clean d) (f : Str → Str) : Html.Clean (d.rewriteAddresses f) := by
  obtain ⟨h1, h2⟩ := no_html_iff.2 ((rewrite_strings f d).2.trans (no_html_iff.1 ⟨h.noHtmlInline, h.noHtmlBlock⟩))
  refine ⟨h2, h1, fun n b hb => ?_⟩
  have h3 := bare_alert_iff.1 ⟨b, hb⟩
  rw [bare_rewrite] at h3
  obtain ⟨b', h4⟩ := bare_alert_iff.2 h3
  exact h.alertNames n b' h4

namespace Html

/-- **C105.** If the addresses of links, images and autolinks are rewritten, each address in the HTML is the result of
rewriting one of the document, or that of a definition as it was, or points to a footnote. -/
theorem C105_rewritten (dw : Str → Nat) (d : Document) (cfg : Config) (out : Str) (hc : Clean d) (f : Str → Str)
    (ho : renderHtml dw (d.rewriteAddresses f) cfg = some out) (l : List Node) (hl : Reads False out l) (name : Str)
    (attrs : List (Str × Str)) (children : List Node) (h : Inside (.el name attrs children) l) (k v : Str)
    (hk : k = cs!"href" ∨ k = cs!"src") (hv : (k, v) ∈ attrs) :
    (∃ i u, d.HasInline i ∧ i.address = some u ∧ v = encode (f u)) ∨
    (∃ l u t, d.HasBlock (.definition l u t) ∧ v = encode u) ∨ ∃ n, v = encode (cs!"#" ++ cfg.anchorPrefix ++ decimal n) := by
  rcases (C102_harmless dw _ cfg out (clean_rewrite hc f) ho l hl name attrs children h).addresses k v hk hv with
    ⟨u, hu, e⟩ | h
  · rcases hu with hu | hu
    · obtain ⟨t, ht, hu⟩ := has_address.1 hu
      rw [(rewrite_strings f d).1 t ht, List.mem_map] at hu
      obtain ⟨u', hu', rfl⟩ := hu
      obtain ⟨i, h1, h2⟩ := has_address.2 ⟨t, ht, hu'⟩
      exact .inl ⟨i, u', h1, h2, e⟩
    · have h3 := bare_definition_iff.1 hu
      rw [bare_rewrite] at h3
      obtain ⟨l, t, h4⟩ := bare_definition_iff.2 h3
      exact .inr (.inl ⟨l, u, t, h4, e⟩)
  · exact .inr (.inr h)

/-- **C105.** So a filter of addresses works, on every input, if definitions are not parsed: all addresses are what the
filter has returned, or point to footnotes. -/
theorem C105_text {x : PExt} {pc : PConfig} (hp : pc.Plain) (hh : pc.htmlBlock ≠ .parse) (hd : pc.linkDefinition ≠ .parse)
    {s : Str} {d : Document} (h : parseMarkdown x pc s = some d) (f : Str → Str) (Ok : Str → Prop) (hf : ∀ u, Ok (f u))
    (dw : Str → Nat) (cfg : Config) (out : Str) (ho : renderHtml dw (d.rewriteAddresses f) cfg = some out) (l : List Node)
    (hl : Reads False out l) (name : Str) (attrs : List (Str × Str)) (children : List Node)
    (hi : Inside (.el name attrs children) l) (k v : Str) (hk : k = cs!"href" ∨ k = cs!"src") (hv : (k, v) ∈ attrs) :
    (∃ u, Ok u ∧ v = encode u) ∨ ∃ n, v = encode (cs!"#" ++ cfg.anchorPrefix ++ decimal n) := by
  rcases C105_rewritten dw d cfg out (parsed_clean hp h hh) f ho l hl name attrs children hi k v hk hv with h1 | h1 | h1
  · obtain ⟨i, u, _, _, e⟩ := h1
    exact .inl ⟨f u, hf u, e⟩
  · obtain ⟨l, u, t, h2, _⟩ := h1
    exact absurd h2 ((C38_blocks_removed hp h).2.2.2.2.2.2.2.2.2.1 hd l u t)
  · exact .inr h1

/-- **C105**, finding: the addresses of definitions are not rewritten, so a filter of addresses misses references. -/
theorem C105_definitions_missed : (parseMarkdown PExt.ascii (PConfig.default fun _ => none)
      cs!"[a](b) ![c](d) <http://e> [f]\n\n[f]: javascript:g").bind
      (fun d => renderHtml List.length (d.rewriteAddresses fun _ => cs!"#") Config.default) =
    some cs!"<p><a href=\"#\">a</a> <img src=\"#\" alt=\"c\"></img> <a href=\"#\">#</a> <a href=\"javascript:g\">f</a></p>" := by
  decide +kernel

end Html
end Verif
