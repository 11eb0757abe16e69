import Verif.CharClasses
import Verif.GenericProps
import Verif.TraverseProps
import Verif.TransformProps
import Verif.GenericTransformProps
import Verif.HtmlProps2
import Verif.LatexProps3
import Verif.InlineProps
import Verif.HtmlBlockProps
import Verif.HtmlTagProps
import Verif.ParserReads
import Verif.PrinterPanic
import Verif.HtmlTree
import Verif.LatexSource
import Verif.PrinterFill
import Verif.ParserBlocks
import Verif.ParserTables
import Verif.ParserDefs
import Verif.ParserLists
import Verif.RoundTrip
import Verif.RoundTripBreak
import Verif.RoundTripHtml
import Verif.Hooks
import Verif.ProvenanceDoc
import Verif.GrammarDoc
import Verif.OverrideGeneric
import Verif.QuoteExact
import Verif.FootnoteLinks
import Verif.OverrideHooks
import Verif.LineEndings
import Verif.LineEndingsBlock
import Verif.LineEndingsLink
import Verif.LineEndingsDoc
import Verif.LineEndingsProps
import Verif.Indifferent
import Verif.IndifferentProps
import Verif.CustomProps
import Verif.EscapeProps
import Verif.StartSpec
import Verif.StartLeaf
import Verif.StartBlock
import Verif.StartDef
import Verif.StartProps
import Verif.ConcatSpec
import Verif.Concat
import Verif.ConcatLeaf
import Verif.ConcatList
import Verif.ConcatDef
import Verif.ConcatProps
import Verif.WrapProps
import Verif.FinalNewlineProps
import Verif.ConformanceParser
import Verif.ConformancePrinter
import Verif.ConformanceLatex
import Verif.ConformanceMore
import Verif.InlineExactSpec
import Verif.InlineExact
import Verif.InlineExactStep
import Verif.InlineExactProps
import Verif.InlineExactMain
import Verif.BlockExactSpec
import Verif.BlockExactLeaf
import Verif.BlockExactHtml
import Verif.BlockExactDef
import Verif.BlockExactTable
import Verif.BlockExactList
import Verif.BlockExactText
import Verif.BlockExactProps
import Verif.InlineOnSpec
import Verif.InlineOn
import Verif.BlockOnSpec
import Verif.BlockOnStart
import Verif.BlockOn
import Verif.PrinterExactSpec
import Verif.PrinterExact
import Verif.PrinterExactInline
import Verif.PrinterExactProps
import Verif.HtmlExactSpec
import Verif.HtmlExact
import Verif.LatexExactSpec
import Verif.LatexExact
import Verif.EndToEnd
import Verif.Effects
import Verif.EffectsProps
import Verif.EffectsTrack
import Verif.EffectsDepth
import Verif.EffectsQuote
import Verif.EffectsList
import Verif.EffectsLogSpec
import Verif.EffectsLog
import Verif.LinkNesting
import Verif.DocSize
import Verif.DocSizeExp
import Verif.Settings
import Verif.SettingsProps
import Verif.Parts
import Verif.LatexCode
import Verif.DocMass
import Verif.HtmlLength
import Verif.HtmlNesting
import Verif.Needs
import Verif.HtmlAnchors
import Verif.WrapOptimal
import Verif.Written
import Verif.HtmlSafe
import Verif.LatexSafe
import Verif.LatexLength
import Verif.AddressRewrite
import Verif.FormatHtml
import Verif.FormatLatex
import Verif.CleanupHtml
import Verif.CleanupLatex
import Verif.TransformHtml
import Verif.FilterOutput
import Verif.FilterMarkdown
import Verif.CleanupMarkdown
import Verif.TransformMarkdown
import Verif.TransformLatex
import Verif.MarkdownInk
import Verif.MarkdownTold
import Verif.LatexTold
