import Verif.Model.Charconv
import Verif.Model.Parser
import Verif.Lemmas.Positional
import Verif.Lemmas.Setup
import Verif.Lemmas.History
import Verif.Lemmas.Subcommands
import Verif.Lemmas.Trace
import Verif.Lemmas.Scan
import Verif.Lemmas.SetupFacts
import Verif.Props.Charconv
import Verif.Props.Setup
import Verif.Lemmas.ParseRun
import Verif.Props.Scan
import Verif.Props.Requests
import Verif.Lemmas.Abstract
import Verif.Lemmas.Line
import Verif.Lemmas.ParseLine
import Verif.Lemmas.Account
import Verif.Lemmas.AccountFlags
import Verif.Lemmas.Returned
import Verif.Props.Arguments
import Verif.Lemmas.Exact
import Verif.Props.Lines
import Verif.Lemmas.Equivalence
import Verif.Props.Equivalence
import Verif.Lemmas.Decide
import Verif.Lemmas.Success
import Verif.Lemmas.Throws
import Verif.Props.Success
import Verif.Props.Lists
import Verif.Props.IsSet
import Verif.Props.Values
import Verif.Lemmas.Files
import Verif.Props.Validators
import Verif.Props.Files
import Verif.Model.Text
import Verif.Model.Page
import Verif.Model.Help
import Verif.Model.Html
import Verif.Model.Man
import Verif.Model.Tdl
import Verif.Model.Pages
import Verif.Spec.Charconv
import Verif.Spec.Text
import Verif.Lemmas.Text
import Verif.Lemmas.Wrap
import Verif.Props.Texts
import Verif.Spec.Pages
import Verif.Lemmas.Pages
import Verif.Lemmas.PagePrint
import Verif.Lemmas.Html
import Verif.Props.Layout
import Verif.Props.PagePrint
import Verif.Props.Html
import Verif.Model.System
import Verif.Model.VersionCheck
import Verif.Spec.Version
import Verif.Lemmas.System
import Verif.Lemmas.Version
import Verif.Lemmas.VersionParts
import Verif.Props.Version
import Verif.Lemmas.World
import Verif.Props.VersionParts
import Verif.Props.RealSystem
import Verif.Props.Shown
import Verif.Model.Messages
import Verif.Model.Moved
import Verif.Props.Moved
import Verif.Model.Steps
import Verif.Spec.Concurrency
import Verif.Lemmas.Steps
import Verif.Lemmas.Region
import Verif.Lemmas.Machine
import Verif.Lemmas.Crash
import Verif.Lemmas.Rely
import Verif.Props.Crash
import Verif.Props.Concurrency
import Verif.Props.NeverAlways
import Verif.Tests.DesignErrors
import Verif.Tests.Fixture
import Verif.Tests.Float
import Verif.Tests.HelpPage
import Verif.Tests.HtmlPage
import Verif.Tests.ManPage
import Verif.Tests.Parse
import Verif.Tests.Regex
import Verif.Tests.Subcommands
import Verif.Tests.Tdl
import Verif.Tests.Validators
import Verif.Tests.VersionCheck
import Verif.Spec.Tool
import Verif.Spec.HelpTexts
import Verif.Props.Tool
import Verif.Props.HelpTexts
import Verif.Props.Defaults
import Verif.Props.ErrorTexts
import Verif.Props.Outline
import Verif.Props.Placed
import Verif.Props.ManPage
import Verif.Props.SetupTexts
import Verif.Props.ToChars
import Verif.Props.ServerCall
import Verif.Props.Order
import Verif.Props.Terminal
import Verif.Props.Output
import Verif.Props.ServerAnswer
import Verif.Props.DiskTraces
import Verif.Props.Shell
import Verif.Props.Shared
import Verif.Props.RealTexts
import Verif.Props.OnlyLines
import Verif.Props.Apps
import Verif.Props.CheckLine
import Verif.Props.Float
import Verif.Props.FloatShow
import Verif.Props.FloatWrite
import Verif.Tests.FloatShow
import Verif.Model.PathValue
import Verif.Spec.PathValue
import Verif.Lemmas.PathValue
import Verif.Props.PathValue
import Verif.Spec.PathCheck
import Verif.Lemmas.PathCheck
import Verif.Props.PathCheck
import Verif.Spec.Independent
import Verif.Lemmas.Independent
import Verif.Props.Independent
import Verif.Model.TypeNames
import Verif.Spec.TypeNames
import Verif.Lemmas.TypeNames
import Verif.Props.TypeNames
import Verif.Spec.Posix
import Verif.Props.Posix
import Verif.Props.CheckParse
import Verif.Model.PathRegex
import Verif.Spec.PathRegex
import Verif.Lemmas.PathRegex
import Verif.Props.PathRegex
import Verif.Model.Tutorial
import Verif.Spec.Tutorial
import Verif.Lemmas.Tutorial
import Verif.Props.Tutorial
import Verif.Model.Git
import Verif.Spec.Git
import Verif.Props.Git
import Verif.Model.Killed
import Verif.Spec.Killed
import Verif.Lemmas.LineValues
import Verif.Lemmas.Killed
import Verif.Props.Killed
import Verif.Spec.OutputDirs
import Verif.Props.OutputDirs
import Verif.Spec.TimeStamp
import Verif.Lemmas.FloatNumbers
import Verif.Lemmas.FloatPrefix
import Verif.Lemmas.TimeStamp
import Verif.Props.Damaged
import Verif.Spec.Recipe
import Verif.Lemmas.Recipe
import Verif.Props.Recipe
import Verif.Spec.Upgrade
import Verif.Lemmas.Upgrade
import Verif.Props.Upgrade
import Verif.Spec.Utf8
import Verif.Lemmas.Utf8
import Verif.Lemmas.Utf8Parse
import Verif.Props.Utf8
import Verif.Spec.Blame
import Verif.Lemmas.Blame
import Verif.Props.Blame
import Verif.Spec.Loosen
import Verif.Lemmas.Loosen
import Verif.Props.Loosen
import Verif.Spec.Mixed
import Verif.Lemmas.Mixed
import Verif.Props.Mixed
import Verif.Spec.Ends
import Verif.Lemmas.Ends
import Verif.Props.Ends
import Verif.Spec.AppEnds
import Verif.Props.AppEnds
import Verif.Spec.Progress
import Verif.Props.Progress
import Verif.Spec.Missing
import Verif.Lemmas.Missing
import Verif.Props.Missing
import Verif.Props.Drawn
import Verif.Model.Regex
import Verif.Spec.Regex
import Verif.Lemmas.Regex
import Verif.Lemmas.RegexRead
import Verif.Lemmas.RegexMain
import Verif.Lemmas.RegexTexts
import Verif.Props.Regex
import Verif.Model.Chaining
import Verif.Spec.Chaining
import Verif.Lemmas.Chaining
import Verif.Props.Chaining
import Verif.Model.AskedSet
import Verif.Props.AskedSet
import Verif.Model.Remote
import Verif.Spec.Remote
import Verif.Props.Remote
