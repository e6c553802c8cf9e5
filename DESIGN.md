# Formal model of JFileTreePrettyPrinter in Lean 4 — design

Layout of the directory: `properties.jsonl` (English properties C01…), `MANIFEST.json` (property → theorems), `lean/Verif/Model` (the code),
`lean/Verif/Spec` (what the properties mean, written without looking at the code), `lean/Verif/Lemmas` (auxiliary proofs),
`lean/Verif/Props` (the theorems, one file per area, named after the property they settle), `lean/Verif/Examples` (concrete cases that meet the hypotheses), `lean/Verif/Conformance` (the unit tests of the repository replayed on the model: tests, no theorem depends on them), `seeded/LOG.jsonl` (wrong programs tried).

## 1. What is modelled

| Module (`lean/Verif/Model`) | Java source |
|---|---|
| `JStr`  | Java `String` as a list of UTF‑16 code units: `compareTo`, `compareToIgnoreCase`, `equalsIgnoreCase`, `startsWith`, `endsWith`, `split("\\.")` (JDK contracts used by the repository) |
| `JPath` | Unix `java.nio.file.Path`: `getFileName`, `getParent`, `normalize`, `toAbsolutePath`, `resolve`, `relativize`, `Path.of` |
| `Fs`    | the file-system calls (`Files.isDirectory`, `readAttributes`, `newDirectoryStream` and the reads of `Files.walk`, `isRegularFile`, `isSymbolicLink`) as effectful oracles (`Files.size` is a function parameter of `BY_FILE_SIZE`), plus an inductive model of a disk with directories, files, special files and links |
| `Posix` | how the operating system finds the entry that a path names, with links in every place of the path (POSIX pathname resolution) |
| `Matchers` | `options/PathMatchers.java`, all of it |
| `EndToEnd` | the text an options document asks for |
| `Glob` | `FileSystem.getPathMatcher("glob:…")` of the JDK on Unix: `sun.nio.fs.Globs.toRegexPattern` and what `java.util.regex.Pattern` does with its result |
| `Sorts` | `options/PathSorts.java`, `options/PathSortBuilder.java`, `Comparator.thenComparing/reversed`, `Stream.sorted` |
| `Builders` | `ChildLimitBuilder`, `ChildLimits`, `LineExtensionBuilder`, `LineExtensions`, `TreeFormat`, `TreeFormats` |
| `Emoji` | `DefaultEmojiMapping(Builder)`, `PathNameEmojiFunction`, `PathExtensionEmojiFunction`, `PathMatcherEmojiFunction`, `SequentialEmojiFunction`, `MappingUtils`, with the default tables |
| `Scanner`, `Scanner32` | `scanner/*`; `Scanner32` is the same code with wrapping 32-bit integers (refinement: C62) |
| `Streams` | the two `try`-with-resources statements with explicit `close()` (scanner, `PathMatchers.testDescendants`), which may fail; C69_closing_invisible relates it to `Scanner` and `Matchers` |
| `Sorting` | the scanner with effectful comparators, `PathSorts`/`PathSortBuilder` comparators that ask the file system (C71) |
| `Javadoc`, `ReadmeCli` | the example calls in the documentation of the builders; the example options file of README.md |
| `Frames` | `DefaultPathToTreeScanner`, `DefaultTreeEntryRenderer` on a call stack of limited depth |
| `TimSort` | `java.util.TimSort`, which `Stream.sorted` ends in: all of it (runs, galloping, merging, the stack of pending runs with its fixed size), as a tree of comparator calls; an index out of bounds is an outcome of its own |
| `Renderer` | `renderer/*` |
| `Printer` | `PrettyPrintOptions`, `FileTreePrettyPrinter(Builder)`, `DefaultFileTreePrettyPrinter`, including the aliasing of mutable option objects |
| `LiveOptions` | the printer with an options object that is modified while a call is running: every read of a field is an action of its own (C75) |
| `Nulls` | the public methods with arguments that may be null: guards in their order, state kept on exceptions; `customizeOptions` (C77) |
| `Cli` | cli module: options document and its validation, mapper, readers, loader, command, console, exception handler |
| `Schema` | `schemas/jfiletreeprettyprinter-options.schema.json` keyword by keyword (draft 2020-12 semantics), and the binding of a parsed document to the option records (Jackson 3: unknown properties ignored, explicit null = missing, 32-bit integers) |
| `RecordDump` | `RecordUtils` |
| `Version` | `ManifestVersionProvider` |
| `Recipes` | the programs of the examples module except `ProjectStructure` |
| `ProjectStructure` | the complete example of the examples module |

**Effects.** Scanner, renderer and matchers are written once, for an arbitrary monad `m` with Java exceptions (`MonadExceptOf Exn m`). User callbacks
(filters, limit function, extension function, emoji mapping) and file-system accesses are `m`-actions. Instances used by the theorems:
* `Except Exn` — a file system that does not change during the call, and callbacks that may throw;
* `ExceptT Exn (StateM σ)` for arbitrary `σ` — callbacks with side effects, and a file system that changes between any two accesses (every
  schedule of concurrent modifications): C16, C17;
* `StreamM σ` — the same with a record of opened and closed streams: C69;
* `LogM σ`, `Traced` — instances that record every callback call and file-system access in order: C07, C27, C65, C66.

**Java `int`.** The scanner is modelled with unbounded integers; `Scanner32` repeats it with `Int32` and C62 proves the two equal (the single exception, a
limit of `Integer.MAX_VALUE` in a directory of at least 2³¹ entries, is in the hypothesis). Precedences and `compare` results are compared, never subtracted, in the code.

**Objects.** Mutable builders and option objects are modelled by their current state; functions built from them that read the live object take that state as an extra argument
(`live`), so aliasing bugs are visible (C30, C39, C48).

## 2. What is not modelled, and parameters

* *Unicode casing*: `String.toLowerCase()` and the per-character folding are a parameter `Casing`; theorems hold for all casings, or for all
  that leave lower-case ASCII unchanged (`KeepsLowerAscii`). `asciiCasing` is used in examples and witnesses only. The code uses the default
  locale, so results may differ between locales (e.g. Turkish dotless i): this is visible as the dependence on the parameter.
* *Globs*: in the theorems before C78 the compiler of `glob:` patterns is a parameter (compiling may fail, a compiled pattern is a predicate on paths). `Glob` is the one of the JDK; classes that the
  regular expression does not end where the glob does (`[]`, `[!]`, `[A-[]`, a range that ends in a backslash) are left to a parameter `odd`. It is written down from knowledge of JDK 21; the sources of the JDK were not at hand to compare it with, so its agreement with them is part of the trusted base.
* *YAML, Jackson, picocli, bean validation engine*: in C50–C55 the parsed document is an arbitrary value of the record types; constraints are evaluated by the model.
  C70 starts from the parsed JSON/YAML tree; Jackson's coercions of values of other types (`"5"` for 5) and duplicate keys are not modelled, and `1.0` is not counted as an integer. The schema file itself has
  trailing commas, so strict JSON parsers reject it; the model takes it as intended. The
  arity of `-o` (PrettyPrintCommand.java:43, `arity="0"`) and picocli's own error output are not modelled. `ManifestVersionProvider` is modelled from the parsed manifest on (C92); picocli's printing of its lines is not.
* *`java.util.Formatter`*: the scan for the first `%` is modelled; what a conversion does is the parameter `env.fmt` (`SpecParser`). `C53_exact` assumes of it what the JDK documents (`PadsPercent`: without an argument there is only the percent sign, padded with spaces).
* *Windows paths* (several roots, `\`), `relativize` with dot elements in the receiver, symbolic links in the middle of paths on the concrete disk type `Node` read as `Node.toFs` (they are resolved in `Posix`, C108, which also says when both agree). In `Posix` there is no limit on the number of links on a way (Linux: 40), no missing search permission and no mount.
* *Resources*: memory, the size of stack frames (C122 counts nested calls of the scanner and the renderer only), infinite directory streams, limits on open files (but C69 bounds the number of open streams).
* *`null` arguments*: the `requireNonNull` guards are left out in most model files; `Nulls` has the public methods with the guards and C77 relates the two. Nullable results are `Option`.
* *Comparators* are pure total functions `Path → Path → Int` in `Scanner`; `Sorting` repeats the scanner with comparators that read the file system, have side effects or throw, and C71 relates the two. The
  JDK's sort (`TimSort`) is modelled on lists instead of arrays: `mergeLo`/`mergeHi` build the merged run instead of copying within the array, loops whose end is not obvious have a bound (running out of it
  would be a crash, which is proved impossible), and index arithmetic does not wrap (arrays have fewer than 2³¹ elements). It is written down from knowledge of JDK 21; the sources of the JDK were not at hand to compare it with, so its agreement with them is part of the trusted base. Theorems about order assume `LawfulCmp`
  (the contract of `java.util.Comparator`), which C32 proves of every built-in comparator, of `reversed`, `thenComparing` and of the builder's results.
* *Reflection failures* in `RecordUtils` (the "error" line), exception messages with `%` in the exception handler beyond what C54/C55 state.
* *Examples module* (`jfiletreeprettyprinter-examples`): main methods with sample configurations. Their options and directories are replayed in `Conformance/Examples`; they are modelled as programs (`Recipes`, `ProjectStructure`), and C93, C94, C97, C105 and C106 prove what they do in every directory. `System.out.println` is not modelled.

## 3. Specifications (`Verif/Spec`)

| File | Says |
|---|---|
| `Layout`, `Display`, `Items`, `Printed` | picture of a tree of labels by blocks; which items are displayed, merged chains, labels; `Prints o t T s` |
| `Decode`, `Skeleton` | a decoder that sees only the text; names and nesting of the tree |
| `Scan`, `Visit`, `Reach`, `Access` | the correct entry tree for given file-system answers; which paths are consulted |
| `Compose`, `Prune`, `Chars` | composition from child texts; pruning by stricter filters; characters of a text |
| `Move` | the same content at two places |
| `Mirror`, `Added` | the tree with children in reverse order; a tree with one more entry, its labels with their depths |
| `AddedEntry`, `Change` | a file system with one more entry, or changed inside one entry; a tree with one entry replaced |
| `Narrow` | the tree narrowed by child limits; trees that differ in the order of siblings only |
| `Streams` | nested records of opened and closed streams |
| `Calls`, `History` | complete record of calls; histories of builder and option calls |
| `Rules`, `Emoji` | documented meaning of rule builders, extension order, emoji precedence |
| `Document`, `Process`, `Printf`, `Dump` | meaning of an options document; runs of the program; format strings; record dump |
| `Glob` | glob patterns as documented: what they consist of, how they are written, which strings they describe |
| `Sorting` | contract of the JDK's sort (permutes, stable), causes of exceptions |
| `Under` | what may be displayed when every question has several possible answers |
| `Threads` | resumptions, pools of threads, schedules, fixed answers |
| `LiveOptions` | correct trees and pictures when limits, order, switch and extension function are read live |
| `Exceptions` | how a computation may end (class `Outcomes`), the possible reasons of an exception, the matchers the library can make |
| `Nulls` | which calls are accepted, and null-free histories with the same effect |
| `DefaultEmojis` | last extension of a name; emojis shown in the README |
| `OnePage` | the whole printer as one recursive program over directory trees; which tree a disk has at a path |
| `Readme` | the directories of the example programs and the texts README.md shows for them |
| `Clone` | what a clone of the repository has, what may be in it besides, and the expected result of the complete example |
| `Posix` | the tree that lies at a place of a disk with links |
| `Locale` | the icon of a file name in lower case, lower case in a Turkish locale, the names that lose their icon there |
| `Program` | the command line program as one function of machine, arguments and directory tree |
| `Library` | conditions on paths as data: what they say, when they can be made, the calls that make them |
| `Choices` | sequences of setter calls as data: the settings they ask for, when they succeed, the calls |
| `Programs` | programs with shared, changing objects as lists of statements: what each printing statement asks for, read off the history; running them in a store |
| `Placed` | who has a place in the display when filters, order, limits and depth act together |
| `GlobSegments` | path globs cut at their slashes; which names the segments accept |
| `ProjectStructure` | what the complete example shows, in terms of names |
| `Recipes` | paths led to through accepted paths; comments by place and extension |
| `Schema` | words about documents (an empty list somewhere, a big number somewhere); the document for an option record |
| `Rename`, `Recreate`, `Snapshot` | a tree with one name replaced; the directory one makes from a text; what two directories with equal texts have in common |
| `Connect`, `Range` | rows of symbols, which symbol stands below which; the texts that can be returned |
| `ReadPaths` | a program that reads paths off a text |
| `Plain` | removing emojis from a text; counting the lines that are just `...` |
| `Size` | the number of characters of a text without merged directories |
| `Order`, `Diff` | the order in which paths are displayed; the lines that change when an entry is added |
| `Relocate` | the same directory at two places, and calls about it |
| `WellFormed` | strings that can be encoded |
| `Javadoc`, `ReadmeCli` | what the examples in the documentation of the builders, and README.md about options files, promise |

## 4. How each property is proved

* **C01–C05, C20, C22–C26, C40** (rendering). `Spec/Layout` defines the textbook block layout, independent from the renderer's symbol stack. One refinement
  theorem (`C01_render_is_picture_effectful`, induction on entries with the prefix invariant of the symbol stack) shows that the renderer equals "label the entries, then lay out" in every
  lawful monad. Line count, alignment and decodability (explicit decoder, round trip by induction) are proved on the layout; compaction is specified by maximal chains. All have an end-to-end form `*_text` about the string returned
  by `prettyPrint`, without assumptions on callbacks (they may throw).
* **C06–C14, C58** (scanning). A declarative relation for a correct entry tree; the scanner's result satisfies it and is the only tree that does (soundness and completeness by induction on fuel/depth). Corollaries for
  display set, limits, depth, truncation, order, permutation independence, noninterference, uniqueness of paths.
* **C15, C19, C21, C29, C30, C34 (remark), C37, C39, C45, C53–C55, C67 (ASCII claim), C70, C94 (in part), C98 (in part), C99, C105 (two of ten programs), C106 (fresh clones), C107 (Turkish locales), C108 (`..` and `.` behind a link)** are false of the code: see section 5.
* **C16, C17**: arbitrary state type, i.e. an adversarial file system; termination is C16, structural invariants by induction.
* **C18**: case analysis on the first failing access in visiting order.
* **C27, C65, C66**: trace monad; exact list of calls by induction on the entry tree.
* **C69**: the predicate `Closes n` (what a computation adds to the record is nested) is preserved by every construct of the code; induction on the depth.
* **C28–C39, C68**: builders and comparators, by induction on rule lists and strings.
* **C41–C46, C59, C60**: matchers, by induction on lists, paths and the depth of the walk.
* **C47**: path normalisation lemmas. **C48, C49**: object-store model, invariants over histories.
* **C50–C55**: CLI model, by structural induction on documents and by cases over the phases of a run. **C56, C57**: structural induction.
* **C61**: compositional text of a directory from the texts of its children. **C62**: refinement from 32-bit to unbounded integers.
* **C63, C64**: bounds and pruning by induction on the scanned tree; the bound is attained on an endless disk of directories (`C63_tight`, same induction with equalities).
* **C67**: induction on the layout.
* **C71**: a sort is a tree of comparator calls (`SortRun`); the loops of the JDK's sort by induction, once for arbitrary answers (permutation, indices within bounds, the stack of pending runs never overflows because run lengths grow like Fibonacci numbers) and once for lawful comparators (sortedness and stability as invariant of merging); a stably sorted list is unique.
* **C72**: postconditions that hold whatever the callbacks answer, for the scanner (C17, C71) and for labelling (`post_dispM`, induction on entries), joined by `C01_render_is_picture_effectful`.
* **C73**: parametricity: scanner, renderer and the library's callbacks preserve every relation between effect contexts that is preserved by return, sequence and `throw` (`Lemmas/Param`, `Lemmas/ParamLib`); used for "can only end with"
  between interruptible and ordinary calls; the JDK's sort is one more such construct (induction on `SortRun`). Termination: induction on the resumption.
* **C83**: the entry tree with all paths renamed is a correct entry tree of the other place (induction along `Scanned`), its labels are the same, and correct entry trees are unique.
* **C84**, **C85**: the changed entry tree is a correct entry tree of the changed file system or options (induction along `Scanned`; a sorted list with one more element is the old sorted list with it inserted, and a strictly sorted list reversed is sorted by the reversed comparator); then labels and picture follow. **C90**, **C91**: the same for a whole subtree and for a replaced one; scanning deeper with more depth allowed only renumbers depth markers (C61).
* **C86**: options made from a document obey it (C50, C36); correct entry trees for the document's answers and for the options' answers are the same on the paths below the target; labels agree there (C01); then C52 and C53.
* **C94**: C68 for names with any number of dots (all candidates but the last have a dot, no key has), C67 for the depth marker.
* **C93**: corollaries of C06, C08, C10, C13, C22 and C28 for the options the programs make, with the documented meaning of the globs (C78, C79).
* **C95**: `Scanned` and the fact that the position of an element in a strictly sorted list is the number of elements before it.
* **C96**: induction over the segments; the texts that meet at a slash are joined into one (`merge`), since C78 speaks about patterns in which texts are not cut.
* **C97**: C95 for the options of the example; C96 for its globs, C44 for the descendants, C28–C31 for its builders.
* **C98**: the record of accesses of C65, entry by entry; C18 for unlistable directories, C07 for rejected ones, C12 for smaller limits.
* **C99**: the way is unique (C46), so C78 and the segments of C96 apply to every path.
* **C100**: for each tree the scanner's entry (if everything displayed is readable) and its rendered lines are built by induction over the tree; otherwise no entry tree fits the answers. The sorted list is unique, so insertion sort gives the same as the JDK's. `C100_disk` has no hypothesis on the tree: every disk has one at every path.
* **C101**: the choices of a document are written as settings; options that answer like the settings everywhere obey the document (C50, C86), so C100 applies to them. The lookup of the document is computed by a function and compared with the relation of C52, bad globs by C51.
* **C102**: conditions are a data type with one constructor for each method of `PathMatchers`; their meaning is a proposition defined on the data type with the small relations of `Spec/Reach` (ancestors, steps down, ways), the calls that make the matcher are the model functions. Both directions by induction on the condition, with the theorems on the single matchers (C38–C46, C63) at each step. Java regular expressions are a set of names, globs a set of paths for each text or a failure.
* **C103**: setter and builder calls are data types; the settings they ask for are computed by a fold (`Spec/Choices`), with the truth of conditions instead of matchers. Invariant of the fold over the real calls: every answer of the options is that of the settings (child limits up to the choice of the negative number), and they always answer if everything can be read (`Faithful`). Options with this invariant print what options with total callbacks print (`Lemmas/Follow`: monotonicity of scanning and of labelling in the callbacks), which is C100. A matcher in a sort rule may throw inside the comparator: the comparator is kept apart as a live one and runs in the model of the JDK's sort, which is monotone in its comparator (`exec_le`) and computes the stable order for lawful total comparators (C71).
* **C104**: a program is a list of statements; an object is named by the number of the statement that made it. `Spec/Programs` reads what a printing statement asks for off the list (a list of `Choice`s, without a store), and separately runs the program in a store with references: options objects, printer builders, printers, and builders whose built objects read them later. Invariant by induction on the length of the program: every cell of the store is the fold of the calls made on it (`Inv`). The options object seen by a printer is then literally the one made by the calls asked for (`call_now`, `calls_look`), and C103 does the rest.
* **C105**: the directories of the examples and the texts of README.md are written down as data (`Spec/Readme`). For each program the text of the one-page printer (C100) on this data is computed by the kernel, which settles one disk; C83 (a directory prints the same wherever it is and however it is listed) carries it over to all file systems that have the directory. For LineExtension.java and Emojis.java the answers of the globs and of the default emojis at these paths come from C79 and C94, which hold for every name.
* **C106**: for every directory of the clone that matters the shown entries are determined with C97's description of the options (the rest of the listing is classified by `Other`), so the entry tree is known up to the mark `...` of the module; its text is computed by the kernel in a reference folder and carried over by renaming the paths (`dispM_map`), with the emojis from C68 and C94.
* **C107**: the picture is the frame of the tree with the labels appended line by line (`layout_zip`); labels that differ only in an emoji without space differ in their first word, so equal texts have equal labels even if names contain line feeds (`join_apart`). Which names have another icon is decided by the tables (no name has the emoji of its extension).
* **C108**: resolution is an inductive relation, deterministic and compositional (`Node.leads_append`); the places reached have no links in them (`Canon`). Two paths of one entry give the same answers behind them (`Node.Denotes.sameBelow`, then C83); the answers show the tree that lies at the place (`posix_holds`, then C100).
* **C109**: the label of an entry determines name and kind (`make`); a directory's labels without the slash are its names in sorted order, so the copy is scanned to the same labels (`key_of`) and C100 (`C100_one_page`) prints it; C83 carries the text to any other place. With compact directories (`C109_compact`) the text is read back to the tree of names (C23, `expand`); the copy made from it is scanned to entries of the same tree of names, and the labels of a compact text depend on that tree only (`disp_same`).
* **C110**: equal texts are read back to equal trees of labels (C23), whose labels determine names and kinds; conversely, two displayed sets that correspond are sorted alike, so the scans are relabellings of each other (C83's `mapPaths`) and the texts are equal.
* **C111**: by induction over the scan, the preorder of a directory is its path followed by the preorders of its entries, which are strictly sorted; `Precedes` is asymmetric, so the arrangement of a given set (C95: the paths with a place) is unique.
* **C112**: the lines of a tree are its label followed by the blocks of its children (`siblings`); C90's description of the new tree (the entry inserted at its place in the sorted list, `Inserted`) is carried through the frame by induction over the way down to the directory (`Inserted.lines`), and the block of each child is the text of the child alone (C61).
* **C113**: the lines are prefix and label (`layout_split`), both concatenations of the parts; well-formedness is read off by an automaton with two states (`surrogates`), which gives the cancellation on both sides (`wellFormed_left`, `wellFormed_right`) for the converse.
* **C114**: bracket expressions are read character by character (`inside_char`), each of one or two units; the range check of `Globs` sees the last unit of the start and the first of the end, that of the regular expression the code points (`inside_wide`, `members_wide`).
* **C115**: the escaped star is a character like others (`means_escaped`); where it stands in the joined names is found by splitting at the last slash (`star_join`). C96 gives the intended glob and the globs without slash.
* **C116**: conditions at corresponding paths hold alike (induction over the relation `CondSame`; what is reached below one place is reached below the other, `reach_moved`; the way from the printed directory to an entry is the same, `way_under`), so the settings of the one-page program answer alike for everything found (`chosen_same`), and C83, which asks for nothing else, gives the texts (`same_print`). C103 connects both with the calls.
* **C117**: the numbers and limits the rules give are computed for all paths (`limitRules_limit`, `customSort_rank`: a text without slash occurs in a path iff it occurs in one of its names, `infix_pathString`), then C10, C08, C36, C28 and C78 give what is displayed.
* **C118**: the run is a function of the document chosen (`run_quiet`), which depends only on the three places (`firstOf_same`); the text of the README is moved with C83; for the example options file the one-page program is computed for all directories (`ReadmeCli.text_eq`), with the meaning of its three globs from C79 and C80.
* **C119**: on the one-page program (C100): what stands below an entry does not depend on its name (`content`, induction over the tree), two lists of entries that compare alike are sorted alike (`arrange_one`), and one changed line of an entry is one changed line of the directory (`hang_oneChanged`); induction down to the entry. `C119_compact` is the same with the names before an entry on its line as a parameter (`contentC`).
* **C120**: the four conditions are about columns; row by row they say that the symbols of a row follow from those of the row above (`Step`), which is the same (`step_columns`, `step_of_columns`). A list of rows with such steps is split at the rows with one symbol into the blocks of the children (`split`, `parse`), which is the inverse of the layout. For the range of the default options, scans are possible trees by induction (`possible_of`), and a possible tree is the text of the directory made from it (C109's `make_dir_key`).
* **C121**: the rows of a drawing (C120) are read one by one (`readRow_row`); a stack whose first n entries are the way to a tree reads the tree and keeps these n entries (`read_tree`, induction over the tree); the paths read are those in the tree of names (`rel_expand`), which is that of the scan (C23), whose paths are made of its names (`stands_of`).
* **C122**: the scanner and the renderer with a counter equal those without, by induction over the counter resp. the entry (`handle_eq`: three calls per level; `renderTree_eq`: two calls per level of the entry tree, one per merged directory); a scanned tree has at most maxDepth + 2 levels (`height_handle`, in every changing world and for every comparator). That less does not suffice is an induction over the counter on a disk of nested directories (`handle_overflows`).
* **C123**: the decoded tree (C03) without emojis is the tree of the same items without emojis (`bare_tree`); a label with emoji has a space, `...` has none (`count_dots`); markers and directories at the depth limit correspond (`mark_cut` by induction over the scan, `complete_iff`).
* **C124**: the length of a picture is the sum over its labels (`picture_length`); the lines of a merged chain cost at most what the chain costs line by line (`chain_le`, induction over the chain; deeper lines cost more, `chars_deeper`). For filters: a pruned tree costs at most what the tree costs (`chars_prune`).
* **C74**, **C82**: induction along the way from the printed path down to the match, with C06 and C44 at every step.
* **C75**: the postconditions of C72 again, for the printer with live reads; the depth limit of each directory is one of the values the field had, so the tree ends at the largest. `C75_unchanged` (equality with the printer of the other
  properties) by the induction of the scanner and of the renderer.
* **C76**: a pair of postconditions (value, exception) for every computation, `Ends`, over the class `Outcomes` of computations of which one knows how they may end; induction over scanner and renderer as for C72, and over the ways to make a matcher.
* **C77**: case analysis for each method, induction over histories; the store after a history with rejected calls is the store after a history of `World` without them, so C48/C49 apply.
* **C78–C81**: translating the written form of a pattern gives the expected tokens (induction on pieces), parsing the tokens gives the atoms, matching with backtracking is the concatenation of the languages (induction on atoms). C81: reading a string
  either builds the pieces or fails (induction on the string, and on the text between brackets). C80: with C06, level by level.
* **C12** (exact form), **C88**: induction along the scanner itself (no assumption on the comparator is used), then on entries for the labels. **C89**: `C01_render_is_picture_effectful`; the translation is the decoder of C03.
* **C87**: composition of C70, C86, C78 and C81; the documented meaning of globs as a function of the text exists because the matcher computes it.
* **C70**: the schema is characterised by inductive predicates; "binds, and is valid exactly without empty values" is shown compositionally for every record (`Agrees`), by induction on matchers.

Hypotheses that occur often: `cwd.abs` (the working directory is absolute: JDK contract), `LawfulCmp` (see above), `FollowsLinks`/`ProperFs` (JDK contract of `readAttributes` following links; a listed entry is a
direct child), `CleanText`/`NoNL` (no line feed in names: needed, a name may contain one on Unix), `TreeFormatOK`/`Readable` (proved for the built-in formats; `C05` shows the constructor guarantees the
first, `C03_condition_needed` that the second is needed). Every theorem has an `example` with a concrete case that meets its hypotheses, next to it or in `Verif/Examples` (one `example := Cxx_… ` with all hypotheses proved), mostly on the demo disk of `Lemmas/Disk.lean`.

## 5. Where the code differs from its documentation (proved)

| Property | Documented or expected | What is proved |
|---|---|---|
| C15 | negative max depth is unlimited | the printed directory shows only `...` |
| C18 | I/O failures surface as `UncheckedIOException` | true on opening and on reading attributes; a failure while iterating escapes as `DirectoryIteratorException` |
| C19 | links are marked `*` | never: attributes are read following links; a dangling link makes the call throw |
| C21 | every directory can be printed | the root directory throws `NullPointerException` for all options |
| C29 | child limit builder uses the default where no rule matches | only without rules; otherwise `-1`; an "unlimited" rule does not stop the search |
| C30 | built limit functions are independent of the builder | a function built without rules follows later `setDefault` calls |
| C34 | `BY_FILE_SIZE` lists directories before files | not before empty files |
| C37 | emoji names ignore case | a second spelling makes `build()` throw (`README.md` over the default) |
| C39 | built emoji mappings are immutable | rules added later to the builder apply |
| C45 | absolute-path matchers see the absolute normalized path | not for relative paths that climb above the working directory |
| C53–C55 | CLI prints the tree / fails cleanly / debug only adds lines | the text is used as a format string: wrong for trees or paths with `%` |
| C70 | the schema describes the accepted files | it accepts empty lists, empty globs and big numbers that are rejected, and rejects limits below -1 that are accepted |
| C75 | modifying the options during a call takes effect later | true in one thread; from another thread, setting the line extension to null can make the call throw `NullPointerException` |
| C76 | the library throws only what the file system or a callback makes it throw | true, except `NullPointerException` for the root and the JDK's complaint about unlawful comparators |
| C77 | a rejected call leaves no trace | true for all setters, builders and factories; `customizeOptions` keeps what a failing customizer has done |
| C79 | `**` matches everything | no line terminators: a path below a directory with a line break in its name is not matched |
| C80 | README: `dir: {type: name, glob: "src/main/**"}` shows `src/main` and below | no subdirectory is ever displayed |
| C94 | README: 📃 for docx, 📖 for readme, `... (max depth reached)` | 📝, 📘 and `...`, always; the other emojis shown are right |
| C105 | README: the texts under MaxDepth and Emojis | another last line; another order of lines and two other emojis. The other eight texts are right |
| C106 | ProjectStructure.java and its test: the expected result | printed exactly if the module core has another visible directory besides `src`; not in a fresh clone |
| C107 | README: default emojis by file name and extension | under a Turkish default locale `LICENSE`, `PHOTO.GIF` and every other known name or extension with a capital `I` lose their emoji |
| C108 | the printed path is what the operating system takes it for | not behind a link: `link/..` prints the directory of the link, `link/.` prints one line with the name of the link |
| C98 | `withChildLimit` documentation: "limits the number of visited children", avoids listing huge directories | every displayed directory above the maximal depth is listed to its end and each entry filtered, even with limit 0; only what is inside the hidden entries is saved |
| C99 | `hasRelativePathMatchingGlob` documentation: throws for a path outside the reference | never throws; the way has `..` names, `**/*.java` accepts `/tmp/file.java` |
| C67 | `CLASSIC_ASCII` is ASCII | contains U+2502 exactly below an entry that is not the last one |

Theorems with the suffix `_partial` (C29, C30, C39, C45) are the parts of those claims that do hold; the full statements are refuted beside them and stay in view as the negated statement
(`*_claim_false`, `*_documented_claim_false`), together with an exact characterisation.

## 6. Tests against wrong programs

`seeded/LOG.jsonl` has one line per attempt: definition, edit, claim, the theorems that no longer compiled (`failed`, as reported by the compiler), the property theorems that depend on these (`properties_lost`, computed
from the dependency graph), and what was tightened. An edit that no theorem noticed led to new or stronger theorems, and was then repeated. An entry without `failed` and without `tightened` is an edit of pure data (an emoji of the default table) that no property speaks about.

### Tests of the model against the repository's own tests

The library was not run. What it is known to print is recorded in its unit tests, so these are replayed on the model in `Verif/Conformance` (`#guard`, evaluated during the build; a wrong output is a build error):
`Core` (basic usage, child limits, tree formats, compact directories, depth, line extensions, sorting, filtering, builders, `PathSortBuilder`, `Depth`), `Matchers` (`PathMatchersTest`), `Emojis` (`EmojisTest`, the
whole table), `Cli` (`FileTreePrettyPrinterCommandLineTest` with all option files, `RecordUtilsTest`), `Examples` (all example programs, among them `ProjectStructure`, which prints the repository itself with
globs, filters, limits, extensions, emojis and precedences). Each printed tree is checked for two listing orders of every directory, with the scanner of `Scanner` and with that of `Sorting` and the JDK's sort. These are tests of the
fidelity of the model, not proofs, and no property rests on them alone. Not replayed: tests that null arguments are rejected (proved in general: C75–C77), `ManifestVersionProviderTest`, hash codes and `toString` of `Depth`.

## 7. Trusted base

* The Lean 4.33.0 kernel. No own axioms, no `sorry`, no `native_decide`, no `bv_decide`.
* The three standard axioms `propext`, `Classical.choice`, `Quot.sound`, used as listed below.
* The reading of the Java code: each definition of the model cites file and lines. `TimSort` and `Glob` model code of the JDK that was not available for comparison; C71 (the parts about `TimSort`) and C78–C81 rest on their being right. Nothing of the library was executed; the outputs recorded in its unit tests are reproduced by the model (§6). The JDK contracts used are stated in the comments of `JStr`, `JPath`, `Fs`, `Sorts`, `Cli`.
* The specifications in `Verif/Spec` and the statements in `Verif/Props`.

### Axioms of each theorem

* no axioms (15): C01_characters, C08_comparators, C13_marker_line, C26_child_on_own_line, C28_independent_of_later_calls, C30_follows_setDefault, C37_only_illegal_state, C41_branch, C41_empty_rejected, C42_glob, C44_not_directory, C45_witness, C49_shorthands, C59_isFile, C73_no_waiting
* `Quot.sound` (1): C71_built_fixed
* `propext` (45): C03_condition_needed, C118_example_valid, C18_kind_of_exception, C20_mark, C22_chain_iff, C22_lines_are_maximal_chains, C22_shows_chain, C24_compact_off_single, C25_extension_at_end, C26_extension_ends_chain, C27_display_order, C28_all_null, C28_calls_append, C28_first_nonnull, C29_exact, C30_claim_false, C30_independent_partial, C34_documented_claim_false, C36_custom_rules_short_circuit, C36_never_null, C37_names_ignore_case, C39_claim_false, C39_immutable_partial, C39_late_rule_applies, C40_emoji_in_front, C41_exceptions, C41_short_circuit, C42_root, C44_no_parent, C47_double_slash, C47_trailing_slash, C49_independent, C49_last_call_wins, C56_null, C57_equals, C60_rejected, C60_star, C70_reverse_false, C73_library_builders, C75_one_thread_extension, C76_builders, C77_factories, C77_options_history, C77_setter, C77_treeFormat
* `Quot.sound`, `propext` (108): C01_render_is_picture_effectful, C02_one_line_per_item, C04_label_column, C04_lines_drawn, C04_text_aligned, C08_string_order, C102_answers, C102_right, C108_dots, C118_lookup_order, C118_not_beside_executable, C118_only_places, C118_same_document, C122_grows, C13_never_opened, C16_accesses, C20_file_line, C21_documented_claim_false, C21_null_pointer, C21_root_never_printed, C27_extension_calls, C27_text, C28_matching_rules, C29_default_ignored, C29_documented_claim_false, C29_first_match_partial, C29_unlimited_rule_ignored, C35_all_names, C36_default_emojis_clean, C36_default_ok, C37_build_ok_iff, C37_default_builds, C37_readme_throws, C37_second_spelling_throws, C38_ith, C38_no_candidates, C41_none_not_any, C43_any_ancestor, C43_nearest_first, C43_no_parent, C43_parent, C44_descendant, C44_failures, C44_not_itself, C44_throwing_matcher, C45_climbing_differs, C45_documented_partial, C45_exact, C46_below, C46_leads_there, C46_way, C47_absolute_form, C47_depends_on_target, C47_insert, C47_string, C48_build_works, C48_own_object, C52_lookup, C53_code_zero, C53_false, C53_format, C53_prints, C53_witness, C54_codes, C54_failed, C54_false, C54_not_found, C54_output_on_failure, C54_witness, C55_adds_messages, C55_false, C55_witness, C57_pushes_and_pops, C57_stack, C59_exclusive, C59_kinds, C60_absolute, C60_relative, C68_no_exception, C69_close_failure, C69_closing_invisible, C69_matchers_close, C69_matchers_invisible, C69_nested_counts, C70_write_read, C71_complaint_happens, C71_fixed_disk, C72_functions, C73_library_orders, C75_depth_and_filter, C76_causes, C76_kinds, C76_matchers, C76_no_exception, C77_builder_history, C77_builders, C77_null_extension, C77_print_null, C81_rejected, C81_reversed_range, C85_involutive, C89_labels_first, C89_one_tree, C89_same_length, C89_same_lines, C92_version, C96_lengths, C99_never_throws
* `Classical.choice`, `Quot.sound`, `propext` (356): C01_displayed_tree_exists_unique, C01_prettyPrint_is_picture, C01_render_is_picture, C01_text, C01_text_returned, C02_line_feeds_more_lines, C02_text_lines, C02_text_lines_compact_off, C03_decode_roundtrip, C03_line_feeds_ambiguous, C03_picture_injective, C03_same_text_same_display, C03_text_decodes, C04_text_columns, C05_constructed_ok, C05_treeFormat_create, C06_display_set_to_depth, C06_exact_display_set, C06_printed_paths, C06_text, C06_top_never_filtered, C07_agreement_on_displayed, C07_below_depth_irrelevant, C07_noninterference, C08_children_sorted, C08_children_strictly_sorted, C08_text, C09_listing_order_irrelevant, C09_same_exception, C100_default, C100_disk, C100_one_page, C101_disk, C101_ends, C101_fails, C101_prints, C102_makes, C103_builds, C103_disk, C103_prints, C103_sound, C104_disk, C104_prints, C104_runs, C104_same, C104_sound, C105_basicUsage, C105_childLimitDynamic, C105_childLimitStatic, C105_compactDirectories, C105_emojis, C105_fileTreeFormat, C105_filtering, C105_lineExtension, C105_maxDepth, C105_sorting, C106_expected, C106_fresh, C106_iff, C107_both, C107_iff, C107_plain, C107_returns, C107_turkish, C108_disk, C108_dot, C108_dotdot, C108_link, C108_meant, C108_nothing, C108_text, C108_through, C108_through_builtin, C108_tree, C109_compact, C109_default, C109_limit_needed, C109_marks_needed, C109_recreate, C10_child_limit, C10_limit_exists, C10_text, C110_disk, C110_marks_needed, C110_snapshot, C111_common, C111_default, C111_order, C112_block, C112_first, C112_last, C112_middle, C113_builtin, C113_closed, C113_wellformed, C114_members, C114_range, C114_wide_start, C115_absolute, C115_examples, C115_intended, C115_names_only, C115_relative, C116_builds, C116_disk, C116_move, C116_sorts, C116_texts, C117_documented, C117_documented_text, C117_emojis, C117_limits, C117_limits_too, C117_printer, C117_sorted, C118_base, C118_example, C118_lookup_false, C118_usage, C119_compact, C119_default, C119_rename, C11_negative_limit_unlimited, C120_default_texts, C120_exactly_trees, C120_no_loose_ends, C120_recognised, C121_disk, C121_read, C122_default, C122_stack_suffices, C123_default, C123_plain, C123_without, C124_compact, C124_filters, C124_filters_compact_longer, C124_lines, C124_size, C12_growing_limits_append, C12_raising_one_limit, C12_smaller_limits_narrow, C12_text, C13_cut_directory, C13_depth_bound, C13_text, C14_smaller_depth_truncates, C14_text, C15_documented_claim_false, C15_negative_depth_prints_only_top, C15_negative_depth_text, C16_height, C16_links_are_leaves, C16_only_directories_have_content, C17_tree_of_possible_answers, C17_under_changes, C18_failure_throws, C18_iteration_failure_escapes, C18_scan_only_throws_for_failures, C18_success_means_no_failure, C19_dangling_link_throws, C19_documented_claim_false, C19_never_marked, C20_attributes_of_displayed, C20_text, C22_text, C23_compact_injective, C23_ellipsis_ambiguous, C23_names_and_nesting_recovered, C23_text, C24_no_chain_same, C24_text_off, C24_text_same, C25_text, C26_text, C31_built_comparator, C31_first, C31_last, C32_combinations, C32_contract, C32_lawful, C33_directories_first, C33_directories_last, C34_by_size, C34_directories_before_nonempty_files, C35_directories_first, C35_dots_only, C35_extensions, C35_no_extension, C36_default, C36_directory, C36_file, C37_case_variant_honoured, C38_candidates, C40_text, C41_truth_tables, C42_names, C43_not_itself, C44_child, C44_child_throwing, C44_sibling, C44_sibling_throwing, C48_format_is_kept, C48_isolated, C48_printer, C50_meaning, C51_maps_iff, C53_exact, C56_dump, C58_every_path_once, C58_text, C59_filter_directories_by_link, C59_filter_regular_files, C61_children, C62_no_overflow, C63_bound, C63_tight, C64_limit_needed, C64_prune, C64_text, C65_once, C65_record, C66_emoji_per_line, C67_alphabet, C67_ascii_claim_false, C67_builtin_symbols, C67_classic_ascii, C68_default_extensions, C68_default_names, C68_last_extension, C68_no_extension, C69_streams_closed, C70_claim_false, C70_conforming_usable_iff, C70_run, C70_write_conforms, C71_any_comparator, C71_exceptions, C71_jdk_sort, C71_lawful, C71_siblings_only, C71_small_sort, C71_sort_fixed, C72_lines, C72_text, C72_text_any_comparator, C73_any_interleaving, C73_any_interleaving_any_comparator, C73_library_matchers, C73_same_results, C73_same_results_any_comparator, C73_same_results_live, C73_terminates, C74_directories, C74_files, C74_no_empty_directory, C74_only_matching, C74_printed, C75_fixed_at_start, C75_race, C75_text, C75_unchanged, C76_causes_any_comparator, C77_combine, C77_customize, C77_history, C78_absolute, C78_characters, C78_name, C78_relative, C78_star, C79_anywhere, C79_below, C79_contains, C79_double_star, C79_escaped, C79_extension, C79_group, C79_literal, C79_prefix, C79_suffix, C80_flat_listing, C80_name_never, C80_options_file, C81_accepted_iff, C82_directories, C82_files, C82_only, C82_printed, C83_builtin, C83_default, C83_disk, C83_move, C83_rename, C84_entry, C84_line, C85_alphabetical, C85_mirror, C86_documented_globs, C86_ends, C86_otherwise, C86_output, C86_unique, C87_malformed_glob, C87_prints, C88_returns_iff, C88_same_labels, C88_siblings_only, C89_translate, C90_block, C90_entry, C90_lines, C90_returns_iff, C91_block, C91_entry, C91_lines, C91_returns_iff, C91_unnoticed, C93_basic_program, C93_childLimitStatic_program, C93_childLimit_program, C93_closed_marks, C93_closed_set, C93_closed_text, C93_comments, C93_comments_built, C93_compact_program, C93_filtering, C93_filtering_program, C93_format_program, C93_lineExtension_program, C93_maxDepth_program, C93_sorting_program, C94_depth_marker, C94_differences, C94_directory, C94_emojis_program, C94_shown, C95_display_set, C95_position, C95_text, C96_absolute, C96_between, C96_extension, C96_relative, C97_built, C97_entries, C97_picture, C98_filter_protects, C98_listed, C98_saved, C98_unreadable, C98_zero, C99_documented_example, C99_extension, C99_glob
