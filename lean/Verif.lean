import Verif.Model.ParseFns
import Verif.Props.Ranges
import Verif.Props.Tokens
import Verif.Props.Strings
import Verif.Props.Numbers
import Verif.Props.Positions
import Verif.Props.Panics
import Verif.Props.ParserState
import Verif.Props.ParserTermination
import Verif.Props.Modes
import Verif.Props.Grammar
import Verif.Props.Programs
import Verif.Props.Gaps
import Verif.Props.Slash
import Verif.Props.Fragment
import Verif.Props.Cost
import Verif.Props.Errors
import Verif.Props.Renaming
import Verif.Props.Online
import Verif.Props.Contexts
import Verif.Props.Core
import Verif.Model.Printer
import Verif.Spec.Printer
import Verif.Proofs.Printer
import Verif.Proofs.PrinterInv
import Verif.Proofs.PrinterBegin
import Verif.Proofs.PrinterReads
import Verif.Proofs.PrinterUnique
import Verif.Proofs.PrinterUniqueStmt
import Verif.Props.Printer
import Verif.Spec.Printed
import Verif.Proofs.PrintedExpr
import Verif.Proofs.PrintedStmt
import Verif.Proofs.PrintedText
import Verif.Proofs.PrintedClear
import Verif.Proofs.PrintedUtf8
import Verif.Props.Printed
