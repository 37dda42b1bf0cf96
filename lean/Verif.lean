import Verif.Model.Main
import Verif.Props.Scanner
import Verif.Props.Parser
import Verif.Props.DataRange
import Verif.Props.Opcode
import Verif.Props.Directive
import Verif.Props.Instruction
import Verif.Props.Operand
import Verif.Props.Layout
import Verif.Props.Relocation
import Verif.Props.IHex
import Verif.Props.Tool
import Verif.Props.Text
import Verif.Props.Source
import Verif.Props.Disassembly
import Verif.Props.Diagnostics
import Verif.Props.Rewrite
import Verif.Props.Combine
import Verif.Model.Options
import Verif.Props.CommandLine
import Verif.Props.Image
import Verif.Props.Regex
import Verif.Props.Stream
import Verif.Props.Errors
import Verif.Props.Endings
import Verif.Props.Literals
import Verif.Props.Edit
import Verif.Props.Stable
import Verif.Props.Size
import Verif.Props.Files
import Verif.Props.Reports
import Verif.Props.Words
import Verif.Props.Bytes
import Verif.Props.Stack
import Verif.Props.Complaints
import Verif.Props.Respell
import Verif.Props.Orgs
import Verif.Props.Bounds
import Verif.Props.Blocks
import Verif.Props.Reorder
import Verif.Props.Insert
import Verif.Props.Calls
import Verif.Props.Provenance
import Verif.Props.Listing
import Verif.Props.Aliases
import Verif.Props.AtEnd
import Verif.Props.Flow
import Verif.Props.Running
import Verif.Props.Slips
import Verif.Props.Chip8
import Verif.Props.Readme
import Verif.Props.Target
import Verif.Props.DirectiveText
import Verif.Props.Printed
import Verif.Props.Crash
import Verif.Props.Profile
import Verif.Props.Identify
import Verif.Props.System
import Verif.Props.Table
import Verif.Props.ByLine
import Verif.Props.Repair
import Verif.Props.Link
import Verif.Props.Alphabet
import Verif.Props.Work
import Verif.Props.Packed
import Verif.Props.Rebase
import Verif.Props.Swap
import Verif.Props.Missing
import Verif.Props.Comments
import Verif.Props.Breaks
import Verif.Props.Possible
import Verif.Props.Adjust
import Verif.Props.Remove
import Verif.Props.Transfer
import Verif.Props.Automaton
import Verif.Props.Written
import Verif.Props.Whole
import Verif.Props.Steps
import Verif.Props.Lost
import Verif.Props.Depends
import Verif.Props.Skeleton
import Verif.Props.Documented
import Verif.Props.Patch
import Verif.Props.PatchText
import Verif.Props.PatchRange
import Verif.Props.PatchNames
import Verif.Props.PatchComment
import Verif.Validation.Scanner
import Verif.Validation.Parser
import Verif.Validation.Instruction
import Verif.Validation.Opcode
import Verif.Validation.Support
import Verif.Validation.Fixtures
