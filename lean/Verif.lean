import Verif.Model.Scanner
import Verif.Model.Cli
import Verif.Props.Layout
import Verif.Props.Display
import Verif.Props.Scanning
import Verif.Props.Limits
import Verif.Props.World
import Verif.Props.Rules
import Verif.Lemmas.Cmp
import Verif.Props.Emoji
import Verif.Props.Matching
import Verif.Props.Paths
import Verif.Props.Objects
import Verif.Props.OptionsFile
import Verif.Props.Process
import Verif.Props.Printf
import Verif.Props.Move
import Verif.Props.Mirror
import Verif.Props.Added
import Verif.Props.EndToEnd
import Verif.Props.Dump
import Verif.Props.Printed
import Verif.Props.Kinds
import Verif.Props.Compose
import Verif.Props.Ints
import Verif.Props.Bounds
import Verif.Props.Tight
import Verif.Props.Calls
import Verif.Props.Chars
import Verif.Props.Streams
import Verif.Props.Schema
import Verif.Props.Sorting
import Verif.Props.Under
import Verif.Props.Threads
import Verif.Props.LiveThreads
import Verif.Props.Filtering
import Verif.Props.LiveOptions
import Verif.Props.Exceptions
import Verif.Props.Nulls
import Verif.Props.Glob
import Verif.Props.OptionsText
import Verif.Props.Narrow
import Verif.Props.Reorder
import Verif.Props.Formats
import Verif.Props.AddedEntry
import Verif.Props.Change
import Verif.Props.ChangeReturns
import Verif.Props.ChangeText
import Verif.Props.Version
import Verif.Model.Recipes
import Verif.Spec.Recipes
import Verif.Props.Recipes
import Verif.Props.RecipePrograms
import Verif.Spec.Readme
import Verif.Props.Readme
import Verif.Spec.Clone
import Verif.Props.Clone
import Verif.Spec.Locale
import Verif.Props.Locale
import Verif.Model.Posix
import Verif.Spec.Posix
import Verif.Lemmas.Posix
import Verif.Props.Posix
import Verif.Spec.Recreate
import Verif.Props.Recreate
import Verif.Spec.Snapshot
import Verif.Props.Snapshot
import Verif.Spec.Order
import Verif.Props.Order
import Verif.Spec.Diff
import Verif.Props.Diff
import Verif.Spec.WellFormed
import Verif.Props.WellFormed
import Verif.Spec.DefaultEmojis
import Verif.Props.DefaultEmojis
import Verif.Props.Programs
import Verif.Spec.Placed
import Verif.Props.Placed
import Verif.Spec.GlobSegments
import Verif.Props.GlobSegments
import Verif.Model.ProjectStructure
import Verif.Spec.ProjectStructure
import Verif.Props.ProjectStructure
import Verif.Props.LimitSaves
import Verif.Props.GlobOutside
import Verif.Props.GlobDocs
import Verif.Props.Relocate
import Verif.Props.GlobWide
import Verif.Props.OnePage
import Verif.Props.Program
import Verif.Spec.Library
import Verif.Spec.Choices
import Verif.Props.Library
import Verif.Lemmas.Follow
import Verif.Props.Choices
import Verif.Props.LineFeeds
import Verif.Conformance.Examples
import Verif.Examples.Scanning
import Verif.Examples.Display
import Verif.Examples.Builders
import Verif.Examples.Calls
import Verif.Model.Javadoc
import Verif.Spec.Javadoc
import Verif.Props.Javadoc
import Verif.Model.ReadmeCli
import Verif.Spec.ReadmeCli
import Verif.Props.ReadmeCli
import Verif.Spec.Rename
import Verif.Props.Rename
import Verif.Props.RenameCompact
import Verif.Props.RecreateCompact
import Verif.Props.Connect
import Verif.Props.Range
import Verif.Props.ReadPaths
import Verif.Props.Frames
import Verif.Props.Plain
import Verif.Props.Size
