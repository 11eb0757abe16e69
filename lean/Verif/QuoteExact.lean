import Verif.ParserQuote
import Verif.ParserShape
/-!
# C74: exactly which quotes are alerts

`C41` and `C55` each leave something out: `C41` the names a standard name is a proper beginning of,
`C55` the quotes that start with `[!`.  Together with what is proved here they decide every quote.
-/
set_option linter.unusedVariables false
namespace Verif
open Nom

/-! ## Specification -/

/-- The line `l` is the marker of an alert of type `t`: without the blanks around it, and in upper
case, it is `[!`, a name and `]`, where the name is a letter followed by letters, digits and
underscores and no standard name is a proper beginning of it. -/
def AlertMarker (x : PExt) (l : Str) (t : AlertType) : Prop :=
  ∃ name, x.upperStr (trim l) = cs!"[!" ++ (name ++ [']']) ∧ AlertName name ∧
    (∀ y ∈ standardAlerts, y.1 <+: name → y.1 = name) ∧ t = alertNamed name

/-- The lines of a quote without the first. -/
def quoteBody (ls : List (Nat × Str)) (last : Nat × Str) : Str :=
  joinWith ['\n'] (((ls ++ [last]).map Prod.snd).drop 1)

/-- The first line of a quote. -/
def quoteFirst (ls : List (Nat × Str)) (last : Nat × Str) : Str := ((ls ++ [last]).headD (0, [])).2

/-! ## Proofs -/

section
variable {x : PExt} {cfg : PConfig}

theorem alertMarkerP_inv {s : Str} {t : AlertType} (h : alertMarkerP s = some ([], t)) :
    ∃ name, s = cs!"[!" ++ (name ++ [']']) ∧ AlertName name ∧
      (∀ y ∈ standardAlerts, y.1 <+: name → y.1 = name) ∧ t = alertNamed name := by
  unfold alertMarkerP at h
  obtain ⟨s1, o1, s2, c1, h1, h2, h3⟩ := delimited_some.1 h
  have hs1 := tag_some.1 h1
  have hs2 := tag_some.1 h3
  obtain ⟨hs1, -⟩ := hs1
  obtain ⟨hs2, -⟩ := hs2
  have e2 : s2 = [']'] := by simpa using hs2
  subst e2
  subst hs1
  have fin : ∀ u : Str, tag u s1 = some ([']'], u) → ∀ y, (u, y) ∈ standardAlerts → t = y →
      ∃ name, cs!"[!" ++ s1 = cs!"[!" ++ (name ++ [']']) ∧ AlertName name ∧
      (∀ y ∈ standardAlerts, y.1 <+: name → y.1 = name) ∧ t = alertNamed name := by
    intro u hu y hy ht
    obtain ⟨rfl, -⟩ := tag_some.1 hu
    refine ⟨u, rfl, ?_, ?_, ?_⟩ <;>
    · simp only [standardAlerts, List.mem_cons, List.not_mem_nil, or_false, Prod.mk.injEq] at hy
      rcases hy with ⟨rfl, rfl⟩ | ⟨rfl, rfl⟩ | ⟨rfl, rfl⟩ | ⟨rfl, rfl⟩ | ⟨rfl, rfl⟩ <;>
      first
        | exact ⟨_, _, rfl, by decide, by decide⟩
        | decide
        | exact ht
  simp only [orElse_some, value_some] at h2
  have tg : ∀ {u : Str} {o}, tag u s1 = some ([']'], o) → tag u s1 = some ([']'], u) := by
    intro u o h
    have := tag_some.1 h
    rw [h, this.2]
  rcases h2 with ⟨_, h2, e⟩ | ⟨n1, ⟨_, h2, e⟩ | ⟨n2, ⟨_, h2, e⟩ | ⟨n3, ⟨_, h2, e⟩ | ⟨n4, ⟨_, h2, e⟩ | ⟨n5, h2⟩⟩⟩⟩⟩
  · exact fin _ (tg h2) _ (by simp [standardAlerts]) e.symm
  · exact fin _ (tg h2) _ (by simp [standardAlerts]) e.symm
  · exact fin _ (tg h2) _ (by simp [standardAlerts]) e.symm
  · exact fin _ (tg h2) _ (by simp [standardAlerts]) e.symm
  · exact fin _ (tg h2) _ (by simp [standardAlerts]) e.symm
  · obtain ⟨name, h2', rfl⟩ := mapP_some.1 h2
    have hn := customAlertName_ok h2'
    have hap := recognize_append h2'
    have hno : ∀ y ∈ standardAlerts, ¬ y.1 <+: name := by
      have key : ∀ u : Str, ∀ t : AlertType, value t (tag u) s1 = none → ¬ u <+: name := by
        intro u t hv hpre
        rw [value_none, tag_none] at hv
        exact hv (hpre.trans ⟨_, hap⟩)
      intro y hy
      simp only [standardAlerts, List.mem_cons, List.not_mem_nil, or_false] at hy
      rcases hy with rfl | rfl | rfl | rfl | rfl
      · exact key _ _ n1
      · exact key _ _ n2
      · exact key _ _ n3
      · exact key _ _ n4
      · exact key _ _ n5
    refine ⟨name, by rw [hap], hn, fun y hy hp => absurd hp (hno y hy), ?_⟩
    have : standardAlerts.find? (fun y => y.1 == name) = none := by
      rw [List.find?_eq_none]
      intro y hy hyn
      have hyn : y.1 = name := by simpa using hyn
      exact hno y hy (hyn ▸ List.prefix_refl _)
    unfold alertNamed
    rw [this]; rfl

theorem parseAlertMarker_iff {l : Str} {t : AlertType} :
    parseAlertMarker x (trim l) = some t ↔ AlertMarker x l t := by
  unfold parseAlertMarker AlertMarker
  rw [trim_trim]
  constructor
  · intro h
    split at h
    · rename_i e
      simp only [Option.some.injEq] at h
      subst h
      exact alertMarkerP_inv e
    · simp at h
  · rintro ⟨name, h1, h2, h3, rfl⟩
    rw [h1, alertMarkerP_of h2 h3]

/-- The alert parser on a quote. -/
theorem githubAlertP_quoted {nl : Str} {ls : List (Nat × Str)} {last : Nat × Str} {e rest : Str}
    {rec : P (List Block)} (hnl : IsNewline nl) (hls : QuoteLinesOk (ls ++ [last]))
    (he : LineEnd e rest) (hr : NotQuote rest) :
    githubAlertP x rec (quoted nl ls last e ++ rest) =
      match parseAlertMarker x (trim (quoteFirst ls last)) with
      | none => none
      | some t => if (quoteBody ls last).isEmpty then some (rest, [.githubAlert t []])
        else match blocks1 rec (quoteBody ls last) with
          | some bs => some (rest, [.githubAlert t bs])
          | none => none := by
  obtain ⟨e0, r0, he0, hs⟩ := quoted_head ls last (rest := rest) hnl he
  have hk : ((ls ++ [last]).headD (0, [])).1 ≤ 3 ∧ OneLine ((ls ++ [last]).headD (0, [])).2 := by
    cases ls with
    | nil => exact hls last (by simp)
    | cons z ls => exact hls z (by simp)
  obtain ⟨l, h1, h2⟩ := alertLine_of hk.1 hk.2 he0
  have hql := quoteLines_of hnl hls he hr
  unfold githubAlertP
  rw [hql, hs, h1]
  simp only [h2]
  rfl

theorem blocks1_blank {s : Str} (h : BlankText s) : blocks1 (blockP x cfg) s = none := by
  have hn : blockP x cfg s = none := by
    unfold blockP blockF blockStep preceded
    rw [manyEmptyLines0_none.2 h]
  unfold blocks1 many1
  rw [hn]; rfl

/-- **C74.** Take any quote that is not blank: lines with `>` in front of them, after at most three
spaces, followed by something that is not a line of a quote.  If its first line is the marker of an
alert and the rest of it is empty or not blank, it is an alert of that type, with the document the
rest parses to; otherwise it is a block quote, with the document all its lines parse to.  What
follows is parsed on its own. -/
theorem C74_quote_or_alert (hc : cfg.CustomOk) (ht : cfg.text ≠ .ignore)
    (hp : cfg.paragraph ≠ .ignore) (hbq : cfg.blockquote = .parse) (hga : cfg.githubAlert = .parse)
    {nl : Str} {ls : List (Nat × Str)} {last : Nat × Str} {e rest : Str} (hnl : IsNewline nl)
    (hls : ∀ y ∈ ls ++ [last], y.1 ≤ 3 ∧ OneLine y.2) (he : LineEnd e rest) (hr : NotQuote rest)
    (hb : ¬ BlankText (joinWith ['\n'] ((ls ++ [last]).map Prod.snd))) :
    ∃ b : Block,
      parseMarkdown x cfg (unlines nl (ls.map quoteLine) ++ (quoteLine last ++ e) ++ rest) =
        (parseMarkdown x cfg rest).map (fun d' => ⟨b :: d'.blocks⟩) ∧
      ((∃ t bs, b = .githubAlert t bs ∧ AlertMarker x (quoteFirst ls last) t ∧
          (quoteBody ls last = [] ∨ ¬ BlankText (quoteBody ls last)) ∧
          parseMarkdown x cfg (quoteBody ls last) = some ⟨bs⟩) ∨
        (∃ bs, b = .blockQuote bs ∧
          (∀ t, AlertMarker x (quoteFirst ls last) t →
            quoteBody ls last ≠ [] ∧ BlankText (quoteBody ls last)) ∧
          parseMarkdown x cfg (joinWith ['\n'] ((ls ++ [last]).map Prod.snd)) = some ⟨bs⟩)) := by
  obtain ⟨d, hd⟩ := C32_parse_total_of_config (x := x) hc ht hp
    (joinWith ['\n'] ((ls ++ [last]).map Prod.snd))
  have hq := blockquoteP_of hc ht hp hnl hls he hr hb hd
  have ha := githubAlertP_quoted (x := x) (rec := blockP x cfg) hnl hls he hr
  -- the quote, when the alert parser fails
  have hquote : githubAlertP x (blockP x cfg) (quoted nl ls last e ++ rest) = none →
      parseMarkdown x cfg (unlines nl (ls.map quoteLine) ++ (quoteLine last ++ e) ++ rest) =
        (parseMarkdown x cfg rest).map (fun d' => ⟨.blockQuote d.blocks :: d'.blocks⟩) := by
    intro hn
    refine parseMarkdown_cons hc (bs := [_]) ?_
    show blockP x cfg (quoted nl ls last e ++ rest) = _
    rw [quoted_alt hc hnl hls he (by rw [hbq]; intro h; cases h) hq, orElse_of_none]
    · refine orElse_of_some ?_
      rw [conditionalBlock_parse hbq, hq]; rfl
    · rw [hga]; exact hn
  have halert : ∀ b : Block,
      githubAlertP x (blockP x cfg) (quoted nl ls last e ++ rest) = some (rest, [b]) →
      parseMarkdown x cfg (unlines nl (ls.map quoteLine) ++ (quoteLine last ++ e) ++ rest) =
        (parseMarkdown x cfg rest).map (fun d' => ⟨b :: d'.blocks⟩) := by
    intro b hn
    refine parseMarkdown_cons hc (bs := [b]) ?_
    show blockP x cfg (quoted nl ls last e ++ rest) = _
    rw [quoted_alt hc hnl hls he (by rw [hbq]; intro h; cases h) hq]
    refine orElse_of_some ?_
    rw [hga]
    exact hn
  cases hm : parseAlertMarker x (trim (quoteFirst ls last)) with
  | none =>
    rw [hm] at ha
    refine ⟨_, hquote ha, .inr ⟨_, rfl, ?_, hd⟩⟩
    intro t h
    rw [parseAlertMarker_iff.2 h] at hm
    cases hm
  | some t =>
    rw [hm] at ha
    have hm' := parseAlertMarker_iff.1 hm
    by_cases h0 : quoteBody ls last = []
    · rw [h0] at ha
      refine ⟨_, halert _ ha, .inl ⟨t, [], rfl, hm', .inl h0, ?_⟩⟩
      rw [h0, parseMarkdown_nil]
    · by_cases h1 : BlankText (quoteBody ls last)
      · have : githubAlertP x (blockP x cfg) (quoted nl ls last e ++ rest) = none := by
          rw [ha]
          simp only [List.isEmpty_iff, h0, if_false, blocks1_blank h1]
        exact ⟨_, hquote this, .inr ⟨_, rfl, fun _ _ => ⟨h0, h1⟩, hd⟩⟩
      · obtain ⟨⟨bs⟩, hbs⟩ := C32_parse_total_of_config (x := x) hc ht hp (quoteBody ls last)
        have : githubAlertP x (blockP x cfg) (quoted nl ls last e ++ rest) =
            some (rest, [.githubAlert t bs]) := by
          rw [ha]
          simp only [List.isEmpty_iff, h0, if_false, blocks1_of_parse hc ht hp h1 hbs]
        exact ⟨_, halert _ this, .inl ⟨t, bs, rfl, hm', .inr h1, hbs⟩⟩

/-- **C74.** With nothing after it, such a quote is an alert exactly if its first line is a marker and
the rest of it is empty or not blank. -/
theorem C74_alert_iff (hc : cfg.CustomOk) (ht : cfg.text ≠ .ignore)
    (hp : cfg.paragraph ≠ .ignore) (hbq : cfg.blockquote = .parse) (hga : cfg.githubAlert = .parse)
    {nl : Str} {ls : List (Nat × Str)} {last : Nat × Str} {e : Str} (hnl : IsNewline nl)
    (hls : ∀ y ∈ ls ++ [last], y.1 ≤ 3 ∧ OneLine y.2) (he : LineEnd e [])
    (hb : ¬ BlankText (joinWith ['\n'] ((ls ++ [last]).map Prod.snd))) (t : AlertType) :
    (∃ bs, parseMarkdown x cfg (unlines nl (ls.map quoteLine) ++ (quoteLine last ++ e)) =
        some ⟨[.githubAlert t bs]⟩) ↔
      AlertMarker x (quoteFirst ls last) t ∧
        (quoteBody ls last = [] ∨ ¬ BlankText (quoteBody ls last)) := by
  have hr : NotQuote [] := by intro k t _ h; cases k <;> simp [List.replicate] at h
  obtain ⟨b, h1, h2⟩ := C74_quote_or_alert (x := x) hc ht hp hbq hga hnl hls he hr hb
  rw [List.append_nil, parseMarkdown_nil] at h1
  constructor
  · rintro ⟨bs, h⟩
    rw [h] at h1
    simp only [Option.map_some, Option.some.injEq, Document.mk.injEq, List.cons.injEq, and_true] at h1
    rcases h2 with ⟨t', bs', rfl, h3, h4, _⟩ | ⟨bs', rfl, _⟩
    · cases h1; exact ⟨h3, h4⟩
    · cases h1
  · rintro ⟨h3, h4⟩
    rcases h2 with ⟨t', bs', rfl, h5, h6, _⟩ | ⟨bs', rfl, h5, _⟩
    · refine ⟨bs', h1.trans ?_⟩
      have : t' = t := by
        have a := parseAlertMarker_iff.2 h3
        have b := parseAlertMarker_iff.2 h5
        rw [a] at b
        exact (Option.some.inj b).symm
      rw [this]; rfl
    · have := h5 t h3
      rcases h4 with h4 | h4
      · exact absurd h4 this.1
      · exact absurd this.2 h4

end

/-- `[!Tip]` is a marker, `[!TIPS]`, `[!2x]` and `[NOTE]` are not. -/
theorem C74_markers : AlertMarker PExt.ascii cs!" [!Tip] " .tip ∧
    AlertMarker PExt.ascii cs!"[!a_1]" (.custom cs!"A_1") ∧
    (∀ t, ¬ AlertMarker PExt.ascii cs!"[!TIPS]" t) ∧ (∀ t, ¬ AlertMarker PExt.ascii cs!"[!2x]" t) ∧
    ∀ t, ¬ AlertMarker PExt.ascii cs!"[NOTE]" t := by
  simp only [← parseAlertMarker_iff]
  have h : ∀ s, parseAlertMarker PExt.ascii (trim s) = none →
      ∀ t, ¬ parseAlertMarker PExt.ascii (trim s) = some t := by
    intro s h t; rw [h]; simp
  exact ⟨by decide +kernel, by decide +kernel, h _ (by decide +kernel), h _ (by decide +kernel),
    h _ (by decide +kernel)⟩

/-- A quote that is an alert, and one that is not, meet the hypotheses of `C74_alert_iff`. -/
example (ent : Str → Option Str) : (∃ bs, parseMarkdown PExt.ascii (PConfig.default ent)
      cs!"> [!Tip]\n> a" = some ⟨[.githubAlert .tip bs]⟩) ∧
    ¬ ∃ bs, parseMarkdown PExt.ascii (PConfig.default ent) cs!"> [!Tip]\n> " =
      some ⟨[.githubAlert .tip bs]⟩ := by
  have h := fun (last : Str) (ho : OneLine last) => C74_alert_iff (x := PExt.ascii)
    (cfg := PConfig.default ent) (default_customOk _) (by intro h; cases h) (by intro h; cases h)
    rfl rfl (nl := ['\n']) (ls := [(0, cs!" [!Tip]")]) (last := (0, last)) (e := []) (.inl rfl)
    (by
      intro y hy
      simp at hy
      rcases hy with rfl | rfl
      · exact ⟨by decide, by intro c hc; revert c; decide⟩
      · exact ⟨by simp, ho⟩)
    (.inr ⟨rfl, rfl⟩) (by intro hb; exact hb.chars (by simp [joinWith])) .tip
  constructor
  · exact (h cs!" a" (by intro c hc; revert c; decide)).2 ⟨C74_markers.1, .inr fun h => nomatch h⟩
  · intro hx
    rcases ((h cs!" " (by intro c hc; revert c; decide)).1 hx).2 with h | h
    · cases h
    · exact h (.space .nil)

end Verif
