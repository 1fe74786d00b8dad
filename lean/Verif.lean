import Verif.Model.Ascii
import Verif.Tests.RepoTests
import Verif.Proofs.Scan.OutdentLoop
import Verif.Proofs.Scan.Diverge
import Verif.Properties.Scanner
import Verif.Properties.Parser
import Verif.Proofs.Scan.Insert
import Verif.Properties.Lines
import Verif.Proofs.Parse.Top
import Verif.Proofs.Parse.Nodes
import Verif.Proofs.Parse.Lists
import Verif.Spec.Erase
import Verif.Spec.Depth
import Verif.Spec.Rename
import Verif.Properties.Resolver
import Verif.Properties.Driver
import Verif.Spec.Plain
import Verif.Spec.Write
import Verif.Proofs.Parse.Does
import Verif.Proofs.Parse.Follow
import Verif.Proofs.Parse.Complete
import Verif.Proofs.Parse.CompleteStmt
import Verif.Proofs.Parse.CompleteTop
import Verif.Proofs.Parse.Gives
import Verif.Proofs.Parse.Exact
import Verif.Proofs.Parse.ExactStmt
import Verif.Proofs.Parse.ExactTop
import Verif.Proofs.Parse.Write
import Verif.Proofs.Parse.WriteTokens
import Verif.Properties.Grammar
import Verif.Spec.Loose
import Verif.Proofs.Parse.Faults
import Verif.Properties.Faults
import Verif.Spec.Scan
import Verif.Proofs.Scan.Next
import Verif.Proofs.Scan.Exact
import Verif.Proofs.Scan.Reading
import Verif.Properties.Reading
import Verif.Properties.Causes
import Verif.Properties.Whole
import Verif.Properties.Rejected
import Verif.Model.Js
import Verif.Proofs.Js.Values
import Verif.Proofs.Js.Inj
import Verif.Proofs.Js.Fit
import Verif.Proofs.Js.Message
import Verif.Spec.Messages
import Verif.Proofs.Parse.Throws
import Verif.Proofs.Parse.Messages
import Verif.Proofs.Resolve.Messages
import Verif.Properties.Messages
import Verif.Properties.Js
import Verif.Proofs.Parse.Local
import Verif.Proofs.Parse.Prefix
import Verif.Properties.Prefix
import Verif.Spec.Viable
import Verif.Proofs.Parse.Continue
import Verif.Proofs.Parse.Marks
import Verif.Proofs.Parse.Viable
import Verif.Proofs.Parse.ViableStmt
import Verif.Proofs.Parse.ViableTop
import Verif.Properties.Viable
import Verif.Model.Print
import Verif.Spec.Style
import Verif.Proofs.Print.Text
import Verif.Proofs.Print.Tree
import Verif.Proofs.Print.Fine
import Verif.Proofs.Print.Numbers
import Verif.Properties.Print
import Verif.Spec.Recovery
import Verif.Proofs.Parse.Shift
import Verif.Proofs.Parse.Recover
import Verif.Properties.Recovery
import Verif.Spec.Positions
import Verif.Spec.Space
import Verif.Proofs.Parse.Positions
import Verif.Proofs.Resolve.Positions
import Verif.Proofs.Scan.Blind
import Verif.Proofs.Scan.Comment
import Verif.Proofs.Scan.Space
import Verif.Properties.Positions
import Verif.Spec.Relabel
import Verif.Spec.Respell
import Verif.Proofs.Parse.Relabel
import Verif.Proofs.Resolve.Relabel
import Verif.Proofs.Scan.Respell
import Verif.Properties.Relabel
import Verif.Spec.Braced
import Verif.Proofs.Parse.Newline
import Verif.Properties.Newlines
import Verif.Spec.Text
import Verif.Proofs.Parse.TextTree
import Verif.Proofs.Parse.TextTokens
import Verif.Proofs.Scan.TextReading
import Verif.Properties.Text
import Verif.Proofs.Parse.Image
import Verif.Proofs.Parse.Reformat
import Verif.Properties.Format
import Verif.Spec.FunEnd
import Verif.Proofs.Parse.FunEnd
import Verif.Properties.FunEnd
import Verif.Spec.Join
import Verif.Proofs.Scan.Join
import Verif.Proofs.Parse.Join
import Verif.Properties.Join
import Verif.Spec.Reindent
import Verif.Proofs.Scan.Reindent
import Verif.Properties.Reindent
import Verif.Spec.Size
import Verif.Proofs.Scan.Count
import Verif.Proofs.Parse.Size
import Verif.Properties.Size
import Verif.Spec.Paren
import Verif.Proofs.Resolve.Paren
import Verif.Proofs.Parse.Paren
import Verif.Properties.Paren
import Verif.Properties.Braces
import Verif.Proofs.Parse.FunAfter
import Verif.Spec.BraceEnd
import Verif.Proofs.Parse.BraceEnd
import Verif.Spec.LastNewline
import Verif.Proofs.Parse.LastNewline
import Verif.Proofs.Scan.LastNewline
import Verif.Properties.LastNewline
import Verif.Spec.Later
import Verif.Proofs.Scan.Later
import Verif.Properties.Later
import Verif.Spec.Unused
import Verif.Proofs.Resolve.Unused
import Verif.Properties.Unused
import Verif.Proofs.Resolve.Separate
import Verif.Properties.Separate
import Verif.Spec.Boxed
import Verif.Proofs.Resolve.Boxed
import Verif.Properties.Boxed
import Verif.Spec.Params
import Verif.Proofs.Resolve.Params
import Verif.Proofs.Resolve.Params2
import Verif.Properties.Params
import Verif.Spec.ScopeNames
import Verif.Proofs.Resolve.ScopeNames
import Verif.Properties.Slots
import Verif.Spec.Reordered
import Verif.Proofs.Resolve.Reordered
import Verif.Properties.Reordered
import Verif.Properties.CommentLine
import Verif.Properties.Crlf
import Verif.Spec.Alphabet
import Verif.Proofs.Scan.Alphabet
import Verif.Properties.Alphabet
import Verif.Proofs.Scan.Place
import Verif.Properties.Place
import Verif.Tests.Demo
import Verif.Model.Page
import Verif.Spec.Page
import Verif.Proofs.Page
import Verif.Properties.Page
import Verif.Spec.Face
import Verif.Proofs.PageFace
import Verif.Proofs.PageTruth
import Verif.Proofs.Resolve.Truth
import Verif.Properties.PageProgram
