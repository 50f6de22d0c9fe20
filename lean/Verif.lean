import Verif.Model.Basic
import Verif.Model.Language
import Verif.Model.CharBuffer
import Verif.Model.UnitText
import Verif.Spec.Language
import Verif.Spec.CharBuffer
import Verif.Proofs.Strings
import Verif.Proofs.CharBuffer
import Verif.Props.Language
import Verif.Props.CharBuffer
import Verif.Model.Archive
import Verif.Spec.Archive
import Verif.Proofs.Tables
import Verif.Props.Archive
import Verif.Props.ArchiveTables
import Verif.Model.Elements
import Verif.Model.XmlWriter
import Verif.Model.Output
import Verif.Model.Escape
import Verif.Spec.Xml
import Verif.Spec.Output
import Verif.Proofs.Xml
import Verif.Proofs.Output
import Verif.Proofs.Namespaces
import Verif.Proofs.UnitTag
import Verif.Proofs.Escape
import Verif.Props.Output
import Verif.Model.SrcDiff
import Verif.Model.Translator
import Verif.Props.OutputUnit
import Verif.Model.ReadAttrs
import Verif.Props.OutputTags
import Verif.Model.ModeStack
import Verif.Spec.ModeStack
import Verif.Props.ModeStack
import Verif.Model.Parser
import Verif.Spec.Parser
import Verif.Proofs.ParserText
import Verif.Proofs.ParserRun
import Verif.Props.Parser
import Verif.Proofs.ParserFrames
import Verif.Proofs.ParserStack
import Verif.Proofs.ParserUids
import Verif.Proofs.ParserNest
import Verif.Proofs.ParserNest2
import Verif.Proofs.ParserNest3
import Verif.Proofs.ParserTypes
import Verif.Props.ParserNest
import Verif.Props.ParserPosition
import Verif.Model.UnitWriter
import Verif.Spec.UnitWriter
import Verif.Proofs.UnitWriter
import Verif.Proofs.UnitStart
import Verif.Proofs.UnitCalls
import Verif.Props.UnitWriter
import Verif.Proofs.UnitParts
import Verif.Proofs.UnitParse
import Verif.Props.UnitParts
import Verif.Model.UnitApi
import Verif.Spec.UnitApi
import Verif.Props.UnitApi
import Verif.Spec.SrcDiff
import Verif.Props.SrcDiff
import Verif.Model.Transform
import Verif.Spec.Transform
import Verif.Props.Transform
import Verif.Model.InputName
import Verif.Props.InputName
import Verif.Model.InputText
import Verif.Spec.InputText
import Verif.Props.InputText
import Verif.Model.FileList
import Verif.Props.FileList
import Verif.Model.Client
import Verif.Model.OpenInputs
import Verif.Props.Client
import Verif.Props.OpenInputs
import Verif.Model.Queues
import Verif.Props.Queues
import Verif.Model.Pretty
import Verif.Spec.Pretty
import Verif.Props.Pretty
import Verif.Model.Cli
import Verif.Props.Cli
import Verif.Model.Reader
import Verif.Spec.Reader
import Verif.Spec.SameSource
import Verif.Spec.ParserTestUnits
import Verif.Proofs.Reader
import Verif.Props.Reader
import Verif.Model.ArchiveIO
import Verif.Spec.ArchiveIO
import Verif.Props.ArchiveIO
import Verif.Proofs.ArchiveText
import Verif.Proofs.ArchiveRead
import Verif.Proofs.ReadInside
import Verif.Props.ArchiveText
import Verif.Model.SrcSax
import Verif.Spec.SrcSax
import Verif.Proofs.SrcSax
import Verif.Proofs.SrcSaxDrive
import Verif.Proofs.SrcSaxContent
import Verif.Proofs.SrcSaxUnit
import Verif.Proofs.SrcSaxArchive
import Verif.Proofs.SrcSaxSolo
import Verif.Props.SrcSax
import Verif.Props.SrcSaxSolo
import Verif.Model.SharedNames
import Verif.Spec.SharedNames
import Verif.Props.SharedNames
import Verif.Props.SharedPipeline
import Verif.Model.UnitSelect
import Verif.Model.ExtractDisk
import Verif.Spec.UnitSelect
import Verif.Spec.ExtractDisk
import Verif.Props.UnitSelect
import Verif.Props.ExtractDisk
import Verif.Spec.ExtractBack
import Verif.Props.ExtractBack
import Verif.Model.CommentText
import Verif.Spec.CommentText
import Verif.Proofs.CommentText
import Verif.Proofs.CommentEnds
import Verif.Proofs.LiteralEnds
import Verif.Props.CommentText
import Verif.Model.CppZero
import Verif.Spec.CppZero
import Verif.Proofs.CppZero
import Verif.Props.CppZero
import Verif.Spec.CppElse
import Verif.Proofs.CppElse
import Verif.Props.CppElse
import Verif.Model.Keywords
import Verif.Model.Lexer
import Verif.Spec.Lexer
import Verif.Proofs.Lexer
import Verif.Proofs.LexerTypes
import Verif.Proofs.LexerClean
import Verif.Proofs.LexerRun
import Verif.Props.Lexer
import Verif.Props.SourceBytes
import Verif.Spec.Lexemes
import Verif.Proofs.Lexemes
import Verif.Proofs.LexemesOps
import Verif.Proofs.LexemesText
import Verif.Proofs.LexemesLines
import Verif.Props.Lexemes
import Verif.Model.XPathApply
import Verif.Spec.XPathApply
import Verif.Proofs.DomTree
import Verif.Props.XPathApply
import Verif.Model.Inputs
import Verif.Spec.Inputs
import Verif.Proofs.Inputs
import Verif.Props.Inputs
import Verif.Model.Consume
import Verif.Model.CatXml
import Verif.Model.Create
import Verif.Spec.Consume
import Verif.Spec.OpenInputs
import Verif.Spec.CatXml
import Verif.Spec.Create
import Verif.Props.Consume
import Verif.Props.CatXml
import Verif.Props.Create
import Verif.Model.Command
import Verif.Spec.Command
import Verif.Props.Command
import Verif.Model.UnitParse
import Verif.Model.Convenience
import Verif.Spec.ParseCalls
import Verif.Proofs.RunSat
import Verif.Proofs.SameInside
import Verif.Proofs.ParseCalls
import Verif.Proofs.ParsedWrite
import Verif.Props.ParseCalls
import Verif.Proofs.SetUp
import Verif.Props.SourceFiles
import Verif.Spec.Convenience
import Verif.Props.Convenience
import Verif.Model.ArchiveSettings
import Verif.Props.ArchiveSettings
import Verif.Model.ApiArgs
import Verif.Spec.ApiArgs
import Verif.Props.ApiArgs
import Verif.Model.ReadRoot
import Verif.Spec.ReadRoot
import Verif.Proofs.ReadRoot
import Verif.Props.ReadRoot
import Verif.Props.SameSource
import Verif.Props.ParserTestUnits
import Verif.Proofs.CopyUnits
import Verif.Spec.CopyUnits
import Verif.Props.CopyUnits
import Verif.Props.CopyScope
import Verif.Model.SrcmlInput
import Verif.Spec.SrcmlInput
import Verif.Props.SrcmlInput
import Verif.Model.Metadata
import Verif.Spec.Metadata
import Verif.Props.Metadata
import Verif.Model.QueryArgs
import Verif.Spec.QueryArgs
import Verif.Props.QueryArgs
import Verif.Model.CliOptions
import Verif.Spec.CliOptions
import Verif.Props.CliOptions
import Verif.Model.Curl
import Verif.Spec.Curl
import Verif.Props.Curl
import Verif.Spec.CommandLine
import Verif.Props.CommandLine
import Verif.Model.ParserTest
import Verif.Model.ParserTestUnits
import Verif.Spec.ParserTest
import Verif.Props.ParserTest
import Verif.Model.Pipes
import Verif.Model.InputPipes
import Verif.Spec.Pipes
import Verif.Spec.InputPipes
import Verif.Props.Pipes
import Verif.Props.InputPipes
import Verif.Model.MovingBuffer
import Verif.Spec.MovingBuffer
import Verif.Props.MovingBuffer
