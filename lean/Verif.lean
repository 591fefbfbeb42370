import Verif.Props.Bytes
import Verif.Props.Cut
import Verif.Props.Record
import Verif.Props.Text
import Verif.Props.Simd
import Verif.Props.SimdFormat
import Verif.Props.Segment
import Verif.Props.Drain
import Verif.Props.Merge
import Verif.Props.Range
import Verif.Props.Filter
import Verif.Props.Find
import Verif.Props.Guide
import Verif.Props.Regex
import Verif.Props.RegexLong
import Verif.Props.Arrival
import Verif.Props.ArrivalInplace
import Verif.Props.ArrivalOutput
import Verif.Props.Bounded
import Verif.Props.Mock
import Verif.Props.BoundedDump
import Verif.Props.BoundedFind
import Verif.Props.BoundedFindLines
import Verif.Props.BoundedGuide
import Verif.Props.BoundedLines
import Verif.Props.BoundedMerge
import Verif.Props.BoundedRange
import Verif.Props.BoundedRegex
import Verif.Props.BoundedPatch
import Verif.Props.BoundedRecords
import Verif.Props.BoundedTextDump
import Verif.Props.Walk
import Verif.Props.PatchBack
import Verif.Props.Map
import Verif.Props.Pipeline
import Verif.Props.Inplace
import Verif.Props.Literal
import Verif.Props.Expr
import Verif.Props.Anchored
import Verif.Props.Simplify
import Verif.Props.Template
import Verif.Props.SimplifyArray
import Verif.Props.WalkText
import Verif.Props.OptionText
import Verif.Props.Program
import Verif.Props.ProgramSmall
import Verif.Props.ProgramFind
import Verif.Props.ProgramGuide
import Verif.Props.ProgramWalk
import Verif.Props.ProgramPatch
import Verif.Props.ProgramWide
import Verif.Props.Columns
import Verif.Props.ColumnsInplace
import Verif.Props.ColumnsOutput
import Verif.Props.ProgramInplace
import Verif.Props.ProgramOutput
import Verif.Props.ProgramBack
import Verif.Props.Pipes
import Verif.Props.Memory
import Verif.Props.Formats
import Verif.Conformance.TestMd
import Verif.Conformance.Readme
import Verif.Conformance.UnitEval
import Verif.Conformance.UnitSegment
import Verif.Conformance.UnitLong
import Verif.Conformance.UnitByte
import Verif.Conformance.UnitTee
import Verif.Conformance.UnitText
import Verif.Proof.Tight
import Verif.Proof.Feeds
import Verif.Proof.Pressed
import Verif.Proof.Rounds
import Verif.Proof.Sliced
import Verif.Model.Asserts
import Verif.Proof.Asserts
import Verif.Proof.AssertsBytes
import Verif.Proof.AssertsGuided
import Verif.Proof.AssertsExtend
import Verif.Props.Asserts
import Verif.Model.AssertsEval
import Verif.Proof.AssertsEval
import Verif.Props.AssertsEval
