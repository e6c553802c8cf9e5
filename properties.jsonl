{"id": "C01", "title": "Output is the standard tree layout of the displayed entries", "statement": "prettyPrint returns the newline-joined lines of the usual block layout: an entry's line, then for each child its block, whose first line is prefixed by the non-last symbol (last symbol for the last child) plus one space and whose other lines are prefixed by the continuation symbol (empty symbol under the last child) plus one space. No trailing newline, no missing or extra line.", "quantifier": "every entry tree, tree format, emoji mapping, line extension and compact setting, in every effect context", "why_tests_cant": "trees are unbounded in depth and width; tests only compare a few fixed trees", "anchors": ["jfiletreeprettyprinter-core/src/main/java/io/github/computerdaddyguy/jfiletreeprettyprinter/renderer/DefaultTreeEntryRenderer.java#renderTree", "jfiletreeprettyprinter-core/src/main/java/io/github/computerdaddyguy/jfiletreeprettyprinter/renderer/DefaultTreeEntryRenderer.java#renderDirectory", "jfiletreeprettyprinter-core/src/main/java/io/github/computerdaddyguy/jfiletreeprettyprinter/renderer/DefaultTreeFormatter.java#format"]}
{"id": "C02", "title": "One line per displayed entry", "statement": "If no name, emoji, extension or tree symbol contains a line feed, the number of output lines equals the number of displayed entries (each file, each directory or merged chain, each '...'). The condition is needed: names with line feeds add lines.", "quantifier": "every scanned tree and every option set", "why_tests_cant": "needs induction over all trees", "anchors": ["jfiletreeprettyprinter-core/src/main/java/io/github/computerdaddyguy/jfiletreeprettyprinter/renderer/DefaultTreeEntryRenderer.java#renderDirectory"]}
{"id": "C03", "title": "The output determines the displayed tree (unambiguous, decodable)", "statement": "There is a decoder that recovers the tree of labels from the text alone, for every displayed tree whose labels have no line feed, whenever no tree symbol has one and the format's branch symbols differ from its continuation and empty symbols. So two different displayed trees never print the same text. Both conditions are needed: two directories with different entries can print the same text if a name contains a line feed.", "quantifier": "every pair of displayed trees; both built-in formats and every admissible custom format", "why_tests_cant": "injectivity ranges over all pairs of trees", "anchors": ["jfiletreeprettyprinter-core/src/main/java/io/github/computerdaddyguy/jfiletreeprettyprinter/renderer/DefaultTreeFormatter.java#format", "jfiletreeprettyprinter-core/src/main/java/io/github/computerdaddyguy/jfiletreeprettyprinter/options/TreeFormats.java", "jfiletreeprettyprinter-core/src/main/java/io/github/computerdaddyguy/jfiletreeprettyprinter/options/TreeFormat.java"]}
{"id": "C04", "title": "Alignment: label column depends only on depth", "statement": "Every line at depth n starts with a prefix of exactly n*(w+1) characters, w the common length of the four symbols; its last segment is a branch symbol and all earlier ones are continuation or empty symbols.", "quantifier": "every line of every output, every valid TreeFormat", "why_tests_cant": "all depths", "anchors": ["jfiletreeprettyprinter-core/src/main/java/io/github/computerdaddyguy/jfiletreeprettyprinter/renderer/DefaultTreeFormatter.java#format", "jfiletreeprettyprinter-core/src/main/java/io/github/computerdaddyguy/jfiletreeprettyprinter/options/TreeFormat.java#ensureAllSameLength", "jfiletreeprettyprinter-core/src/main/java/io/github/computerdaddyguy/jfiletreeprettyprinter/renderer/TreeFormatter.java#getInstance"]}
{"id": "C05", "title": "TreeFormat construction accepts exactly equal-length symbols", "statement": "new TreeFormat succeeds exactly when the four symbols have the same length, keeps them unchanged, and otherwise throws IllegalArgumentException.", "quantifier": "every four strings", "why_tests_cant": "all strings", "anchors": ["jfiletreeprettyprinter-core/src/main/java/io/github/computerdaddyguy/jfiletreeprettyprinter/options/TreeFormat.java", "jfiletreeprettyprinter-core/src/main/java/io/github/computerdaddyguy/jfiletreeprettyprinter/options/TreeFormats.java"]}
{"id": "C06", "title": "Exact display set under filters", "statement": "With no child limit and enough depth, a path is displayed iff it is the printed path itself, or its parent directory is displayed and lists it and it passes the directory filter (if a directory) or the file filter (otherwise). The printed path itself is never filtered; directories whose children are all rejected are still displayed.", "quantifier": "every file system, every pair of filters", "why_tests_cant": "all file systems and predicates", "anchors": ["jfiletreeprettyprinter-core/src/main/java/io/github/computerdaddyguy/jfiletreeprettyprinter/scanner/DefaultPathToTreeScanner.java#handleDirectory", "jfiletreeprettyprinter-core/src/main/java/io/github/computerdaddyguy/jfiletreeprettyprinter/options/PrettyPrintOptions.java#pathFilter", "jfiletreeprettyprinter-core/src/main/java/io/github/computerdaddyguy/jfiletreeprettyprinter/options/PrettyPrintOptions.java#filterDirectories", "jfiletreeprettyprinter-core/src/main/java/io/github/computerdaddyguy/jfiletreeprettyprinter/options/PrettyPrintOptions.java#filterFiles"]}
{"id": "C07", "title": "Rejected, cut-off and too-deep parts are never consulted", "statement": "The output depends only on what is displayed: if two file systems agree on every visited path, they print the same, whatever lies below rejected directories, beyond the child limit, or below the depth limit (unreadable directories there cannot make printing fail).", "quantifier": "every pair of file systems that agree on the visited part", "why_tests_cant": "noninterference quantifies over pairs of file systems", "anchors": ["jfiletreeprettyprinter-core/src/main/java/io/github/computerdaddyguy/jfiletreeprettyprinter/scanner/DefaultPathToTreeScanner.java#handleDirectory", "jfiletreeprettyprinter-core/src/main/java/io/github/computerdaddyguy/jfiletreeprettyprinter/scanner/DefaultPathToTreeScanner.java#handleDirectoryChildren"]}
{"id": "C08", "title": "Children are printed in comparator order with alphabetical tie-break", "statement": "In every displayed directory the children appear in ascending order of the configured comparator, and children it considers equal appear in String order of their names.", "quantifier": "every directory content and every lawful comparator", "why_tests_cant": "all directory contents", "anchors": ["jfiletreeprettyprinter-core/src/main/java/io/github/computerdaddyguy/jfiletreeprettyprinter/scanner/DefaultPathToTreeScanner.java#directoryStreamToIterator", "jfiletreeprettyprinter-core/src/main/java/io/github/computerdaddyguy/jfiletreeprettyprinter/options/PrettyPrintOptions.java#sort", "jfiletreeprettyprinter-core/src/main/java/io/github/computerdaddyguy/jfiletreeprettyprinter/options/PathSorts.java#ALPHABETICAL"]}
{"id": "C09", "title": "Output does not depend on the order in which the OS lists directories", "statement": "If two runs see the same directory contents in different listing orders (and filter and limit functions are functions of the path), they return the same string.", "quantifier": "every permutation of every listing, every lawful comparator passed to sort()", "why_tests_cant": "all permutations at all levels", "anchors": ["jfiletreeprettyprinter-core/src/main/java/io/github/computerdaddyguy/jfiletreeprettyprinter/scanner/DefaultPathToTreeScanner.java#directoryStreamToIterator", "jfiletreeprettyprinter-core/src/main/java/io/github/computerdaddyguy/jfiletreeprettyprinter/options/PrettyPrintOptions.java#sort"]}
{"id": "C10", "title": "Child limit shows exactly the first n children, and '...' iff more exist", "statement": "If the limit function returns n >= 0 for a displayed directory above the depth limit, its displayed children are the first n of its filtered children in sort order, followed by exactly one '...' iff there are more than n of them.", "quantifier": "every directory, n and content", "why_tests_cant": "boundary for all n and sizes", "anchors": ["jfiletreeprettyprinter-core/src/main/java/io/github/computerdaddyguy/jfiletreeprettyprinter/scanner/DefaultPathToTreeScanner.java#handleDirectoryChildren"]}
{"id": "C11", "title": "Negative child limit means no limit", "statement": "If the limit function returns a negative value for a displayed directory above the depth limit, all filtered children are displayed and no child-limit '...' is added.", "quantifier": "every negative value and directory", "why_tests_cant": "all values", "anchors": ["jfiletreeprettyprinter-core/src/main/java/io/github/computerdaddyguy/jfiletreeprettyprinter/scanner/DefaultPathToTreeScanner.java#handleDirectoryChildren", "jfiletreeprettyprinter-core/src/main/java/io/github/computerdaddyguy/jfiletreeprettyprinter/options/PrettyPrintOptions.java#withChildLimit"]}
{"id": "C12", "title": "Raising the child limit only appends; lowering it only cuts", "statement": "If the limit grows from n to k>=n for a directory, the children shown under n are an unchanged prefix of those shown under k. Read backwards: if a call returns a text and emoji mapping and line extension do not throw, every call with smaller limits returns a text, too, and its tree is the tree of the first call in which every directory with more children than its new limit keeps the first ones, followed by '...'.", "quantifier": "every n <= k, directory and file system; limit functions that depend on the directory", "why_tests_cant": "relates two runs for all inputs", "anchors": ["jfiletreeprettyprinter-core/src/main/java/io/github/computerdaddyguy/jfiletreeprettyprinter/scanner/DefaultPathToTreeScanner.java#handleDirectoryChildren"]}
{"id": "C13", "title": "Max depth bounds the display", "statement": "With max depth d >= 0 nothing is displayed deeper than d, except that each directory at depth d has exactly one '...' child, whether or not it is empty, and such a directory is never opened.", "quantifier": "every d and file system", "why_tests_cant": "all depths", "anchors": ["jfiletreeprettyprinter-core/src/main/java/io/github/computerdaddyguy/jfiletreeprettyprinter/scanner/DefaultPathToTreeScanner.java#handleDirectory", "jfiletreeprettyprinter-core/src/main/java/io/github/computerdaddyguy/jfiletreeprettyprinter/options/PrettyPrintOptions.java#withMaxDepth"]}
{"id": "C14", "title": "Smaller max depth is a truncation of larger", "statement": "The tree printed with max depth d is the tree printed with D >= d cut at depth d, and printing with d succeeds if printing with D does and emoji mapping and line extension do not throw.", "quantifier": "every d <= D and file system", "why_tests_cant": "relates two runs", "anchors": ["jfiletreeprettyprinter-core/src/main/java/io/github/computerdaddyguy/jfiletreeprettyprinter/scanner/DefaultPathToTreeScanner.java#handleDirectory"]}
{"id": "C15", "title": "Negative max depth means unlimited", "statement": "withMaxDepth(n) with n<0 prints the whole tree (documented). FALSE of the code: the printed directory then only shows '...'.", "quantifier": "every negative n and directory", "why_tests_cant": "the documented claim is universal", "anchors": ["jfiletreeprettyprinter-core/src/main/java/io/github/computerdaddyguy/jfiletreeprettyprinter/options/PrettyPrintOptions.java#withMaxDepth", "jfiletreeprettyprinter-core/src/main/java/io/github/computerdaddyguy/jfiletreeprettyprinter/scanner/DefaultPathToTreeScanner.java#handleDirectory"]}
{"id": "C16", "title": "Scanning always terminates and never follows links", "statement": "prettyPrint returns or throws for every file system, even one with cyclic directory links or an adversarial oracle; the number of nested directory visits never exceeds max(0,maxDepth)+1; an entry that is not itself a directory without following links is always a leaf.", "quantifier": "every file system oracle, including cyclic ones", "why_tests_cant": "termination on all inputs", "anchors": ["jfiletreeprettyprinter-core/src/main/java/io/github/computerdaddyguy/jfiletreeprettyprinter/scanner/DefaultPathToTreeScanner.java#handle", "jfiletreeprettyprinter-core/src/main/java/io/github/computerdaddyguy/jfiletreeprettyprinter/options/PathMatchers.java#isDirectory"]}
{"id": "C17", "title": "Structural invariants survive concurrent modification", "statement": "Even if the file system changes arbitrarily between accesses, a returned tree respects depth bound, child limit and parent/child paths as read.", "quantifier": "every schedule of external changes between accesses", "why_tests_cant": "schedules are unbounded", "anchors": ["jfiletreeprettyprinter-core/src/main/java/io/github/computerdaddyguy/jfiletreeprettyprinter/scanner/DefaultPathToTreeScanner.java#scan"]}
{"id": "C18", "title": "I/O failures surface as UncheckedIOException and never as partial output", "statement": "If a visited directory cannot be opened or a visited file's attributes cannot be read, prettyPrint throws UncheckedIOException naming it; it never returns a tree that silently omits it. (A failure while iterating an opened directory escapes as DirectoryIteratorException instead: documented claim violated there.)", "quantifier": "every failure point in every tree", "why_tests_cant": "all failure points", "anchors": ["jfiletreeprettyprinter-core/src/main/java/io/github/computerdaddyguy/jfiletreeprettyprinter/scanner/DefaultPathToTreeScanner.java#handleDirectory", "jfiletreeprettyprinter-core/src/main/java/io/github/computerdaddyguy/jfiletreeprettyprinter/scanner/DefaultPathToTreeScanner.java#handleFile", "jfiletreeprettyprinter-core/src/main/java/io/github/computerdaddyguy/jfiletreeprettyprinter/FileTreePrettyPrinter.java#prettyPrint"]}
{"id": "C19", "title": "Symbolic links are marked with '*'", "statement": "A displayed symbolic link has '*' appended to its name. FALSE of the code: attributes are read following links, so the marker is never printed and a dangling link makes the whole call throw.", "quantifier": "every symbolic link", "why_tests_cant": "universal claim about all trees", "anchors": ["jfiletreeprettyprinter-core/src/main/java/io/github/computerdaddyguy/jfiletreeprettyprinter/renderer/DefaultFileFormatter.java#formatFile", "jfiletreeprettyprinter-core/src/main/java/io/github/computerdaddyguy/jfiletreeprettyprinter/scanner/DefaultPathToTreeScanner.java#handleFile"]}
{"id": "C20", "title": "Special files are marked with '?' and only they", "statement": "A displayed non-directory entry gets '?' appended iff its (link-followed) attributes say 'other'; every other entry shows its bare name.", "quantifier": "every file attributes value", "why_tests_cant": "all attribute values", "anchors": ["jfiletreeprettyprinter-core/src/main/java/io/github/computerdaddyguy/jfiletreeprettyprinter/renderer/DefaultFileFormatter.java#formatFile"]}
{"id": "C21", "title": "Printing the file-system root", "statement": "prettyPrint works for every existing directory. FALSE for the root directory '/': whatever the options and the file system it never returns a text; it throws NullPointerException, unless scanning or the emoji function throws something else before.", "quantifier": "every option set with / as target", "why_tests_cant": "universal over options", "anchors": ["jfiletreeprettyprinter-core/src/main/java/io/github/computerdaddyguy/jfiletreeprettyprinter/renderer/DefaultFileFormatter.java#formatDirectoryBegin"]}
{"id": "C22", "title": "Compact mode merges exactly the maximal single-directory chains", "statement": "With compact directories on, a non-root directory whose only entry is a directory and whose line extension is null is merged with that entry; the merged line is the concatenation of all names each followed by '/', carries the last directory's emoji and extension and the last directory's children. Nothing else is merged; the root is never merged.", "quantifier": "every tree and extension function", "why_tests_cant": "chains of every length", "anchors": ["jfiletreeprettyprinter-core/src/main/java/io/github/computerdaddyguy/jfiletreeprettyprinter/renderer/DefaultTreeEntryRenderer.java#renderDirectory"]}
{"id": "C23", "title": "Compact mode loses no information", "statement": "With no emojis and no extensions, the names and nesting of all displayed files and directories can be recovered from the compact output, if no name contains a line feed and the tree format can be read back (C03). Only a file named '...' cannot be told from the mark for omitted entries.", "quantifier": "every displayed tree", "why_tests_cant": "injectivity over all trees", "anchors": ["jfiletreeprettyprinter-core/src/main/java/io/github/computerdaddyguy/jfiletreeprettyprinter/renderer/DefaultTreeEntryRenderer.java#renderDirectory", "jfiletreeprettyprinter-core/src/main/java/io/github/computerdaddyguy/jfiletreeprettyprinter/renderer/DefaultFileFormatter.java#formatDirectoryBegin"]}
{"id": "C24", "title": "Compact off never merges; compact only affects chains", "statement": "With compact off each directory has its own line; trees without single-directory chains print identically in both modes.", "quantifier": "every tree", "why_tests_cant": "all trees", "anchors": ["jfiletreeprettyprinter-core/src/main/java/io/github/computerdaddyguy/jfiletreeprettyprinter/renderer/DefaultTreeEntryRenderer.java#renderDirectory"]}
{"id": "C25", "title": "Line extensions are appended to the right lines", "statement": "Each file line and each directory line ends with the extension function's result for the (last) path on that line, or nothing when it returns null; '...' lines never get one.", "quantifier": "every tree and extension function", "why_tests_cant": "all trees", "anchors": ["jfiletreeprettyprinter-core/src/main/java/io/github/computerdaddyguy/jfiletreeprettyprinter/renderer/DefaultTreeEntryRenderer.java#renderFile", "jfiletreeprettyprinter-core/src/main/java/io/github/computerdaddyguy/jfiletreeprettyprinter/renderer/DefaultTreeEntryRenderer.java#renderDirectory", "jfiletreeprettyprinter-core/src/main/java/io/github/computerdaddyguy/jfiletreeprettyprinter/renderer/DefaultTreeEntryRenderer.java#computeLineExtension"]}
{"id": "C26", "title": "Empty-string extension breaks a compact chain", "statement": "In compact mode a directory whose extension is non-null (including empty) ends its chain, its child directory is printed on its own line below.", "quantifier": "every chain and extension function", "why_tests_cant": "all chains", "anchors": ["jfiletreeprettyprinter-core/src/main/java/io/github/computerdaddyguy/jfiletreeprettyprinter/renderer/DefaultTreeEntryRenderer.java#renderDirectory", "jfiletreeprettyprinter-core/src/main/java/io/github/computerdaddyguy/jfiletreeprettyprinter/options/LineExtensions.java"]}
{"id": "C27", "title": "The extension function is called exactly once per displayed directory and file, in display order", "statement": "For any stateful extension function, the sequence of calls is exactly the preorder of displayed directories and files; no call for '...' entries.", "quantifier": "every tree and stateful function", "why_tests_cant": "call traces are unbounded", "anchors": ["jfiletreeprettyprinter-core/src/main/java/io/github/computerdaddyguy/jfiletreeprettyprinter/renderer/DefaultTreeEntryRenderer.java#renderDirectory"]}
{"id": "C28", "title": "Line extension builder: first non-null wins", "statement": "The built function returns the result of the first rule whose result is non-null and null if there is none, and rules added after build() have no effect on it.", "quantifier": "every rule list and later builder history", "why_tests_cant": "all rule lists", "anchors": ["jfiletreeprettyprinter-core/src/main/java/io/github/computerdaddyguy/jfiletreeprettyprinter/options/LineExtensionBuilder.java#build"]}
{"id": "C29", "title": "Child limit builder: first match wins, default otherwise", "statement": "The built function returns the limit of the first matching rule and the default if none matches (documented). FALSE of the code: a non-matching last rule hides the default, and a matching UNLIMITED rule does not stop the search.", "quantifier": "every rule list, default and path", "why_tests_cant": "all rule lists", "anchors": ["jfiletreeprettyprinter-core/src/main/java/io/github/computerdaddyguy/jfiletreeprettyprinter/options/ChildLimitBuilder.java#build"]}
{"id": "C30", "title": "Child limit builder result is independent of later builder calls", "statement": "Functions already built do not change when the builder is used further. FALSE: setDefault after build changes built functions; true for add.", "quantifier": "every later builder history", "why_tests_cant": "all histories", "anchors": ["jfiletreeprettyprinter-core/src/main/java/io/github/computerdaddyguy/jfiletreeprettyprinter/options/ChildLimitBuilder.java#build", "jfiletreeprettyprinter-core/src/main/java/io/github/computerdaddyguy/jfiletreeprettyprinter/options/ChildLimitBuilder.java#setDefault"]}
{"id": "C31", "title": "Sort builder precedence", "statement": "The built comparator orders paths by the value of the first rule yielding a nonzero value (0 if none), ties by name; addFirst matches come before, addLast matches after all others, unless an earlier rule applies.", "quantifier": "every rule list and pair of paths, precedences over the full int range", "why_tests_cant": "all rule lists and ints", "anchors": ["jfiletreeprettyprinter-core/src/main/java/io/github/computerdaddyguy/jfiletreeprettyprinter/options/PathSortBuilder.java#build"]}
{"id": "C32", "title": "Built-in comparators obey the Comparator contract", "statement": "ALPHABETICAL, BY_FILE_SIZE, DIRECTORY_FIRST, DIRECTORY_LAST, BY_EXTENSION, builder results and sort(...) wrappings are antisymmetric in sign, transitive and consistent (total preorders).", "quantifier": "every triple of paths", "why_tests_cant": "contract ranges over triples", "anchors": ["jfiletreeprettyprinter-core/src/main/java/io/github/computerdaddyguy/jfiletreeprettyprinter/options/PathSorts.java"]}
{"id": "C33", "title": "DIRECTORY_FIRST / DIRECTORY_LAST partition", "statement": "With sort(DIRECTORY_FIRST) every displayed directory precedes every displayed file in its parent, names ascending within each group; DIRECTORY_LAST mirrors it.", "quantifier": "every directory content", "why_tests_cant": "all contents", "anchors": ["jfiletreeprettyprinter-core/src/main/java/io/github/computerdaddyguy/jfiletreeprettyprinter/options/PathSorts.java#DIRECTORY_FIRST", "jfiletreeprettyprinter-core/src/main/java/io/github/computerdaddyguy/jfiletreeprettyprinter/options/PathSorts.java#DIRECTORY_LAST"]}
{"id": "C34", "title": "BY_FILE_SIZE order", "statement": "With sort(BY_FILE_SIZE) children appear by ascending size, directories counting as 0, ties by name; documented 'directories before regular files' is FALSE for empty files.", "quantifier": "every directory content", "why_tests_cant": "all contents", "anchors": ["jfiletreeprettyprinter-core/src/main/java/io/github/computerdaddyguy/jfiletreeprettyprinter/options/PathSorts.java#BY_FILE_SIZE"]}
{"id": "C35", "title": "BY_EXTENSION order", "statement": "Directories first, then files without extension (compared by name ignoring case), then files whose names consist of dots only (all equal), then files compared by their extension parts from last to first ignoring case, a file with fewer parts first when one is a suffix of the other.", "quantifier": "every pair of names", "why_tests_cant": "all names", "anchors": ["jfiletreeprettyprinter-core/src/main/java/io/github/computerdaddyguy/jfiletreeprettyprinter/options/PathSorts.java#BY_EXTENSION"]}
{"id": "C36", "title": "Emoji precedence", "statement": "The emoji of a path is: first matching custom matcher of its kind, else name mapping, else (files) the most specific matching extension, else the default of its kind.", "quantifier": "every builder content and path", "why_tests_cant": "all contents", "anchors": ["jfiletreeprettyprinter-core/src/main/java/io/github/computerdaddyguy/jfiletreeprettyprinter/options/DefaultEmojiMapping.java", "jfiletreeprettyprinter-core/src/main/java/io/github/computerdaddyguy/jfiletreeprettyprinter/options/SequentialEmojiFunction.java", "jfiletreeprettyprinter-core/src/main/java/io/github/computerdaddyguy/jfiletreeprettyprinter/options/DefaultEmojiMappingBuilder.java#build"]}
{"id": "C37", "title": "Emoji name and extension matching ignores case", "statement": "Name and extension mappings give the same emoji for names equal after lower-casing, and setting a mapping under any case variant of a name is honoured. FALSE for a second case variant of an existing key (e.g. README.md over the default readme.md): build() throws IllegalStateException.", "quantifier": "every mapping and case variant", "why_tests_cant": "all strings", "anchors": ["jfiletreeprettyprinter-core/src/main/java/io/github/computerdaddyguy/jfiletreeprettyprinter/options/MappingUtils.java#toLowerCaseKeys", "jfiletreeprettyprinter-core/src/main/java/io/github/computerdaddyguy/jfiletreeprettyprinter/options/PathNameEmojiFunction.java", "jfiletreeprettyprinter-core/src/main/java/io/github/computerdaddyguy/jfiletreeprettyprinter/options/PathExtensionEmojiFunction.java"]}
{"id": "C38", "title": "Extension candidates are tried from most to least specific", "statement": "For a.b.c.d the candidates are b.c.d, c.d, d in that order, and none for a name without a dot.", "quantifier": "every file name", "why_tests_cant": "all names", "anchors": ["jfiletreeprettyprinter-core/src/main/java/io/github/computerdaddyguy/jfiletreeprettyprinter/options/PathExtensionEmojiFunction.java#getExtensions"]}
{"id": "C39", "title": "Built emoji mapping is immutable", "statement": "Later builder calls do not affect an already built mapping (documented). FALSE for addFileEmoji/addDirectoryEmoji; true for all other setters.", "quantifier": "every later builder history", "why_tests_cant": "all histories", "anchors": ["jfiletreeprettyprinter-core/src/main/java/io/github/computerdaddyguy/jfiletreeprettyprinter/options/DefaultEmojiMappingBuilder.java#build", "jfiletreeprettyprinter-core/src/main/java/io/github/computerdaddyguy/jfiletreeprettyprinter/options/PathMatcherEmojiFunction.java"]}
{"id": "C40", "title": "Emoji prefix rendering", "statement": "A null emoji adds nothing; otherwise the line's name part is preceded by the emoji and one space; '...' lines never carry one.", "quantifier": "every mapping and tree", "why_tests_cant": "all trees", "anchors": ["jfiletreeprettyprinter-core/src/main/java/io/github/computerdaddyguy/jfiletreeprettyprinter/renderer/EmojiFileFormatter.java"]}
{"id": "C41", "title": "Matcher algebra", "statement": "not, allOf, anyOf, noneOf and ifMatchesThenElse compute negation, conjunction, disjunction, joint denial and conditional of their arguments, stopping at the first decisive matcher (later ones are not evaluated); empty collections are rejected with IllegalArgumentException.", "quantifier": "every list of matchers, including throwing ones", "why_tests_cant": "all lists", "anchors": ["jfiletreeprettyprinter-core/src/main/java/io/github/computerdaddyguy/jfiletreeprettyprinter/options/PathMatchers.java#combineMatchers", "jfiletreeprettyprinter-core/src/main/java/io/github/computerdaddyguy/jfiletreeprettyprinter/options/PathMatchers.java#not", "jfiletreeprettyprinter-core/src/main/java/io/github/computerdaddyguy/jfiletreeprettyprinter/options/PathMatchers.java#ifMatchesThenElse"]}
{"id": "C42", "title": "Name matchers", "statement": "hasName, hasNameIgnoreCase, hasNameStartingWith, hasNameEndingWith, hasExtension test exactly the last name element; a root path never matches; hasExtension(e) holds iff the name is s+'.'+e for some s.", "quantifier": "every path and argument", "why_tests_cant": "all strings", "anchors": ["jfiletreeprettyprinter-core/src/main/java/io/github/computerdaddyguy/jfiletreeprettyprinter/options/PathMatchers.java#hasName", "jfiletreeprettyprinter-core/src/main/java/io/github/computerdaddyguy/jfiletreeprettyprinter/options/PathMatchers.java#hasExtension"]}
{"id": "C43", "title": "Parent and ancestor matchers", "statement": "hasDirectParentMatching tests exactly the parent, hasAnyAncestorMatching holds iff some proper prefix path matches; the path itself is never tested.", "quantifier": "every path and matcher", "why_tests_cant": "all depths", "anchors": ["jfiletreeprettyprinter-core/src/main/java/io/github/computerdaddyguy/jfiletreeprettyprinter/options/PathMatchers.java#hasDirectParentMatching", "jfiletreeprettyprinter-core/src/main/java/io/github/computerdaddyguy/jfiletreeprettyprinter/options/PathMatchers.java#hasAnyAncestorMatching"]}
{"id": "C44", "title": "Child, descendant and sibling matchers", "statement": "hasAnyDirectChildMatching / hasAnyDescendantMatching / hasSiblingMatching hold iff some listed child / some path reachable through listed subdirectories / some other entry of the parent matches; never the path itself; false for non-directories; they throw only what the nested matcher throws, or UncheckedIOException for a directory that cannot be listed or an entry whose attributes cannot be read.", "quantifier": "every file system and matcher", "why_tests_cant": "all trees", "anchors": ["jfiletreeprettyprinter-core/src/main/java/io/github/computerdaddyguy/jfiletreeprettyprinter/options/PathMatchers.java#testDescendants"]}
{"id": "C45", "title": "Absolute-path matchers see the absolute normalized path", "statement": "hasAbsolutePathMatching(m) applies m to path.toAbsolutePath().normalize() (documented). FALSE for relative paths that climb with '..'; true for all others.", "quantifier": "every path and working directory", "why_tests_cant": "all paths", "anchors": ["jfiletreeprettyprinter-core/src/main/java/io/github/computerdaddyguy/jfiletreeprettyprinter/options/PathMatchers.java#hasAbsolutePathMatching"]}
{"id": "C46", "title": "Relative-path matchers", "statement": "hasRelativePathMatching(ref,m) applies m to the name sequence leading from ref to the path; for a path below ref it is exactly the remaining names, whatever spelling of ref and path was used.", "quantifier": "every ref and path", "why_tests_cant": "all paths", "anchors": ["jfiletreeprettyprinter-core/src/main/java/io/github/computerdaddyguy/jfiletreeprettyprinter/options/PathMatchers.java#hasRelativePathMatching"]}
{"id": "C47", "title": "Different spellings of the target print the same", "statement": "prettyPrint(p) depends only on the absolute normalized form of p; prettyPrint(String s) equals prettyPrint(Path.of(s)); adding '.' elements or a trailing slash changes nothing.", "quantifier": "every string, path and working directory", "why_tests_cant": "all spellings", "anchors": ["jfiletreeprettyprinter-core/src/main/java/io/github/computerdaddyguy/jfiletreeprettyprinter/DefaultFileTreePrettyPrinter.java#prettyPrint", "jfiletreeprettyprinter-core/src/main/java/io/github/computerdaddyguy/jfiletreeprettyprinter/FileTreePrettyPrinter.java#prettyPrint"]}
{"id": "C48", "title": "A built printer versus later option changes", "statement": "A printer keeps the tree format and emoji mapping it was built with, but follows later changes of every other option made on the same options object.", "quantifier": "every history of builder and option calls", "why_tests_cant": "all histories", "anchors": ["jfiletreeprettyprinter-core/src/main/java/io/github/computerdaddyguy/jfiletreeprettyprinter/FileTreePrettyPrinterBuilder.java", "jfiletreeprettyprinter-core/src/main/java/io/github/computerdaddyguy/jfiletreeprettyprinter/renderer/LineRenderer.java#create", "jfiletreeprettyprinter-core/src/main/java/io/github/computerdaddyguy/jfiletreeprettyprinter/scanner/DefaultPathToTreeScanner.java"]}
{"id": "C49", "title": "Options setters are independent", "statement": "Each option setter changes only its own option; the last call wins; createDefault has the documented defaults.", "quantifier": "every sequence of setter calls", "why_tests_cant": "all sequences", "anchors": ["jfiletreeprettyprinter-core/src/main/java/io/github/computerdaddyguy/jfiletreeprettyprinter/options/PrettyPrintOptions.java"]}
{"id": "C50", "title": "Options file mapping", "statement": "The printer options obtained from a valid external options file have exactly the behaviour it describes: emojis, compact flag, max depth, static or dynamic limit, dir/file filters and line extensions, with library defaults for absent keys.", "quantifier": "every options document", "why_tests_cant": "all documents", "anchors": ["jfiletreeprettyprinter-cli/src/main/java/io/github/computerdaddyguy/jfiletreeprettyprinter/cli/options/mapper/DefaultExternalOptionsMapper.java"]}
{"id": "C51", "title": "A validated options file never fails to map", "statement": "If validation accepts an options document and its globs are well formed, mapping it throws nothing.", "quantifier": "every options document", "why_tests_cant": "matchers nest without bound", "anchors": ["jfiletreeprettyprinter-cli/src/main/java/io/github/computerdaddyguy/jfiletreeprettyprinter/cli/options/mapper/DefaultExternalOptionsMapper.java#mapMatcher", "jfiletreeprettyprinter-cli/src/main/java/io/github/computerdaddyguy/jfiletreeprettyprinter/cli/options/model/Matcher.java"]}
{"id": "C52", "title": "Options file lookup", "statement": "With -o the given file is used and its absence is an error; without -o the first existing of target/.prettyprint, ./.prettyprint, home/.prettyprint is used, an existing but bad one is an error (never skipped), and with none of them the defaults are used.", "quantifier": "every state of the candidate files", "why_tests_cant": "all combinations", "anchors": ["jfiletreeprettyprinter-cli/src/main/java/io/github/computerdaddyguy/jfiletreeprettyprinter/cli/options/reader/FallbackExternalOptionsReader.java", "jfiletreeprettyprinter-cli/src/main/java/io/github/computerdaddyguy/jfiletreeprettyprinter/cli/options/reader/SimpleExternalOptionsReader.java", "jfiletreeprettyprinter-cli/src/main/java/io/github/computerdaddyguy/jfiletreeprettyprinter/cli/options/reader/ExternalOptionsReader.java"]}
{"id": "C53", "title": "CLI prints exactly what the library returns", "statement": "With exit code 0 stdout is the library's string plus a line separator. FALSE when the string contains '%', because it is used as a printf format string; true otherwise.", "quantifier": "every tree and options", "why_tests_cant": "file names are arbitrary", "anchors": ["jfiletreeprettyprinter-cli/src/main/java/io/github/computerdaddyguy/jfiletreeprettyprinter/cli/PrettyPrintCommand.java#call", "jfiletreeprettyprinter-cli/src/main/java/io/github/computerdaddyguy/jfiletreeprettyprinter/cli/io/DefaultConsoleOutput.java#print"]}
{"id": "C54", "title": "CLI failures", "statement": "If the target does not exist, or any exception is thrown, the exit code is 1 and, unless debug is on, nothing is written to stdout. FALSE if the tree itself contains a format specifier such as %s (printing it then fails after a part has been written); true for every failure before printing, and for every tree without '%'.", "quantifier": "every failure", "why_tests_cant": "all failure points", "anchors": ["jfiletreeprettyprinter-cli/src/main/java/io/github/computerdaddyguy/jfiletreeprettyprinter/cli/PrettyPrintCommand.java", "jfiletreeprettyprinter-cli/src/main/java/io/github/computerdaddyguy/jfiletreeprettyprinter/cli/exception/DefaultExecutionExceptionHandler.java"]}
{"id": "C55", "title": "Debug flag only adds debug lines", "statement": "Turning debug on only inserts [DEBUG] messages on stdout, in front of the normal output, and leaves stderr, exit code and the printed tree unchanged. FALSE if no options file is given and the path of a missing fallback options file contains a format specifier such as %s (the message containing the path is used as a format string, so the run fails); true if an options file is given or the target and home directory names contain no '%'.", "quantifier": "every run", "why_tests_cant": "relates two runs", "anchors": ["jfiletreeprettyprinter-cli/src/main/java/io/github/computerdaddyguy/jfiletreeprettyprinter/cli/io/DefaultConsoleOutput.java#printDebug"]}
{"id": "C56", "title": "Record dump", "statement": "The debug dump of an options record lists every non-null component exactly once, in order, indented by its nesting, and omits nulls.", "quantifier": "every nested record", "why_tests_cant": "unbounded nesting", "anchors": ["jfiletreeprettyprinter-cli/src/main/java/io/github/computerdaddyguy/jfiletreeprettyprinter/cli/RecordUtils.java"]}
{"id": "C57", "title": "Depth is an immutable stack", "statement": "append then pop gives back the same depth, size counts appends, equal symbols mean equal depths, and neither operation changes the receiver.", "quantifier": "every sequence of operations", "why_tests_cant": "all sequences", "anchors": ["jfiletreeprettyprinter-core/src/main/java/io/github/computerdaddyguy/jfiletreeprettyprinter/renderer/Depth.java"]}
{"id": "C58", "title": "No path is displayed twice", "statement": "Every displayed path is displayed exactly once, and it lies in or below the printed path.", "quantifier": "every file system and options", "why_tests_cant": "all trees", "anchors": ["jfiletreeprettyprinter-core/src/main/java/io/github/computerdaddyguy/jfiletreeprettyprinter/scanner/DefaultPathToTreeScanner.java#handleDirectory"]}
{"id": "C59", "title": "Kind matchers recognise exactly their kind", "statement": "isDirectory, isRegularFile and isSymbolicLink accept exactly directories, regular files and links (links not followed), isFile accepts everything that is no directory; no path is of two kinds. Used as filters they decide which kinds of entries the printed text shows.", "quantifier": "every disk, path and options", "why_tests_cant": "all disks", "anchors": ["jfiletreeprettyprinter-core/src/main/java/io/github/computerdaddyguy/jfiletreeprettyprinter/options/PathMatchers.java#isDirectory", "jfiletreeprettyprinter-core/src/main/java/io/github/computerdaddyguy/jfiletreeprettyprinter/options/PathMatchers.java#isRegularFile", "jfiletreeprettyprinter-core/src/main/java/io/github/computerdaddyguy/jfiletreeprettyprinter/options/PathMatchers.java#isSymbolicLink"]}
{"id": "C60", "title": "Glob matchers fail early and test the documented path", "statement": "The glob '*' accepts every path; a glob the platform rejects makes the factory call throw, never the printing; every other glob is compiled once and tested against the absolute normalized path, or the way from the reference.", "quantifier": "every glob, glob compiler, reference and path", "why_tests_cant": "all globs and paths", "anchors": ["jfiletreeprettyprinter-core/src/main/java/io/github/computerdaddyguy/jfiletreeprettyprinter/options/PathMatchers.java#hasAbsolutePathMatchingGlob", "jfiletreeprettyprinter-core/src/main/java/io/github/computerdaddyguy/jfiletreeprettyprinter/options/PathMatchers.java#hasRelativePathMatchingGlob"]}
{"id": "C61", "title": "The text of a directory is composed of the texts of its children", "statement": "The text printed for a directory is its own line followed by one block per displayed child, and the block of a child is, up to the tree symbols in front, the text prettyPrint returns for that child alone with a max depth smaller by one (in compact mode, unless the child is merged with its only subdirectory).", "quantifier": "every file system, options (callbacks may throw) and directory", "why_tests_cant": "relates a run to the runs of all children", "anchors": ["jfiletreeprettyprinter-core/src/main/java/io/github/computerdaddyguy/jfiletreeprettyprinter/renderer/DefaultTreeEntryRenderer.java#renderDirectory", "jfiletreeprettyprinter-core/src/main/java/io/github/computerdaddyguy/jfiletreeprettyprinter/scanner/DefaultPathToTreeScanner.java#handleDirectoryChildren"]}
{"id": "C62", "title": "int arithmetic does not overflow", "statement": "With Java's wrapping 32-bit depth and child counters, prettyPrint behaves as with unbounded integers, for every max depth and child limit, including Integer.MIN_VALUE and MAX_VALUE.", "quantifier": "every max depth, child limit function and file system (a limit of exactly Integer.MAX_VALUE on a larger directory excluded)", "why_tests_cant": "needs billions of entries or levels", "anchors": ["jfiletreeprettyprinter-core/src/main/java/io/github/computerdaddyguy/jfiletreeprettyprinter/scanner/DefaultPathToTreeScanner.java#handle", "jfiletreeprettyprinter-core/src/main/java/io/github/computerdaddyguy/jfiletreeprettyprinter/scanner/DefaultPathToTreeScanner.java#handleDirectoryChildren"]}
{"id": "C63", "title": "Child limit and max depth bound the output", "statement": "If every directory's child limit is between 0 and n and the max depth is d, the text has at most 2*(1+n+n^2+...+n^d) lines, however large the directory is (as long as no displayed name, emoji or extension contains a line break). No smaller bound is possible: for all n and d there is a directory whose text has exactly that many lines.", "quantifier": "every file system, options, n and d", "why_tests_cant": "all trees, also arbitrarily large ones", "anchors": ["jfiletreeprettyprinter-core/src/main/java/io/github/computerdaddyguy/jfiletreeprettyprinter/scanner/DefaultPathToTreeScanner.java#handleDirectoryChildren"]}
{"id": "C64", "title": "Stricter filters only remove", "statement": "Without child limits, replacing the filters by stricter ones removes exactly the rejected entries with everything below them, and changes nothing else. (With child limits this fails: cut entries may appear.)", "quantifier": "every file system, options and pair of filters", "why_tests_cant": "relates two runs for all inputs", "anchors": ["jfiletreeprettyprinter-core/src/main/java/io/github/computerdaddyguy/jfiletreeprettyprinter/scanner/DefaultPathToTreeScanner.java#handleDirectory", "jfiletreeprettyprinter-core/src/main/java/io/github/computerdaddyguy/jfiletreeprettyprinter/options/PrettyPrintOptions.java#filterDirectories"]}
{"id": "C65", "title": "Complete record of file-system accesses and callback calls", "statement": "A successful run asks, for every displayed entry in preorder: its kind; for files the attributes; for directories above the depth limit one listing, one limit call and one filter call per listed entry; and only afterwards emojis and extensions. Nothing is opened, read, filtered or asked twice.", "quantifier": "every file system, options and path", "why_tests_cant": "quantifies over all runs and their whole call sequence", "anchors": ["jfiletreeprettyprinter-core/src/main/java/io/github/computerdaddyguy/jfiletreeprettyprinter/scanner/DefaultPathToTreeScanner.java", "jfiletreeprettyprinter-core/src/main/java/io/github/computerdaddyguy/jfiletreeprettyprinter/renderer/DefaultTreeEntryRenderer.java", "jfiletreeprettyprinter-core/src/main/java/io/github/computerdaddyguy/jfiletreeprettyprinter/DefaultFileTreePrettyPrinter.java#prettyPrint"]}
{"id": "C66", "title": "One emoji call per line", "statement": "The emoji mapping is called exactly once per line that is not '...', in line order, for the file or the last merged directory on that line.", "quantifier": "every file system, options and path", "why_tests_cant": "all runs", "anchors": ["jfiletreeprettyprinter-core/src/main/java/io/github/computerdaddyguy/jfiletreeprettyprinter/renderer/DefaultTreeEntryRenderer.java", "jfiletreeprettyprinter-core/src/main/java/io/github/computerdaddyguy/jfiletreeprettyprinter/renderer/DefaultLineRenderer.java"]}
{"id": "C67", "title": "Characters of the output; CLASSIC_ASCII", "statement": "The returned text contains only line feeds, the fixed characters space / * ? ., the characters of the tree format, and characters of names, emojis and extensions of displayed entries. In both built-in formats the four symbols differ. The claim 'with CLASSIC_ASCII and ASCII names the text is ASCII' is false: exactly when something is displayed below an entry that is not the last of its siblings, the text contains the box-drawing character U+2502 (and this is the only non-ASCII character).", "quantifier": "every file system, options and path", "why_tests_cant": "All names, trees and options; tests compare a few fixed texts.", "anchors": ["jfiletreeprettyprinter-core/src/main/java/io/github/computerdaddyguy/jfiletreeprettyprinter/options/TreeFormats.java", "jfiletreeprettyprinter-core/src/main/java/io/github/computerdaddyguy/jfiletreeprettyprinter/renderer/DefaultTreeFormatter.java", "jfiletreeprettyprinter-core/src/main/java/io/github/computerdaddyguy/jfiletreeprettyprinter/renderer/DefaultLineRenderer.java"]}
{"id": "C68", "title": "Every entry of the default emoji tables is effective", "statement": "withDefaultEmojis() never throws and every entry of its tables applies: a file whose name is a key of the name table in any case gets that emoji, and a file base.key (any base, dots at the end ignored) whose name is not in the name table gets the emoji of key in the extension table, or the default file emoji if there is none (in every locale that leaves lower-case ASCII text unchanged).", "quantifier": "every file system, locale, file name and table entry", "why_tests_cant": "all spellings and locales; a key with an upper-case letter or a dot at the wrong place would silently be dead", "anchors": ["jfiletreeprettyprinter-core/src/main/java/io/github/computerdaddyguy/jfiletreeprettyprinter/options/DefaultEmojiMappingBuilder.java", "jfiletreeprettyprinter-core/src/main/java/io/github/computerdaddyguy/jfiletreeprettyprinter/options/PathNameEmojiFunction.java", "jfiletreeprettyprinter-core/src/main/java/io/github/computerdaddyguy/jfiletreeprettyprinter/options/PathExtensionEmojiFunction.java"]}
{"id": "C69", "title": "Directory streams are always closed", "statement": "Whatever prettyPrint does, return or throw (I/O failure, failing close(), exception of a callback), every directory stream it opened has been closed exactly once, in reverse order of opening, and at most maxDepth of its own streams are open at the same time; the matchers hasAnyDirectChildMatching, hasAnyDescendantMatching and hasSiblingMatching likewise close the stream they open, also when they stop at the first match. If a close() fails, the call throws an UncheckedIOException naming that directory (or an exception thrown earlier); otherwise closing has no influence on the text.", "quantifier": "every file system (also changing during the call), every callback that closes its own streams, every depth, every pattern of failures", "why_tests_cant": "all combinations of failures and nesting depths; leaks show only under load", "anchors": ["jfiletreeprettyprinter-core/src/main/java/io/github/computerdaddyguy/jfiletreeprettyprinter/scanner/DefaultPathToTreeScanner.java", "jfiletreeprettyprinter-core/src/main/java/io/github/computerdaddyguy/jfiletreeprettyprinter/options/PathMatchers.java"]}
{"id": "C70", "title": "The published schema of options files against the files the CLI accepts", "statement": "Documents that conform to the published JSON schema are accepted by the CLI, and conversely every option set the CLI accepts can be written as a conforming document. FALSE in both directions, with an exact boundary: a conforming document is accepted iff no `matchers` or `limits` list and no `glob` string in it is empty and every number has 32 bits (otherwise a run with that file exits with code 1 and prints nothing); a valid option record has a conforming document iff no limit of a dynamic child limit is below -1. Every option record whose numbers have 32 bits is read back unchanged from the document written for it.", "quantifier": "every JSON/YAML document (any nesting of matchers), every option record", "why_tests_cant": "documents are trees of unbounded depth; tests compare samples, and no test validates against the schema", "anchors": ["jfiletreeprettyprinter-cli/src/main/resources/schemas/jfiletreeprettyprinter-options.schema.json", "jfiletreeprettyprinter-cli/src/main/java/io/github/computerdaddyguy/jfiletreeprettyprinter/cli/options/reader/SimpleExternalOptionsReader.java", "jfiletreeprettyprinter-cli/src/main/java/io/github/computerdaddyguy/jfiletreeprettyprinter/cli/options/model/ExternalOptions.java", "jfiletreeprettyprinter-cli/src/main/java/io/github/computerdaddyguy/jfiletreeprettyprinter/cli/options/model/ChildLimit.java", "jfiletreeprettyprinter-cli/src/main/java/io/github/computerdaddyguy/jfiletreeprettyprinter/cli/options/model/Filter.java", "jfiletreeprettyprinter-cli/src/main/java/io/github/computerdaddyguy/jfiletreeprettyprinter/cli/options/model/LineExtension.java", "jfiletreeprettyprinter-cli/src/main/java/io/github/computerdaddyguy/jfiletreeprettyprinter/cli/options/model/Matcher.java"]}
{"id": "C71", "title": "Sorting with any comparator", "statement": "Stable comparators that obey the Comparator contract give exactly the order of all other properties, also when they ask the file system at each comparison. Whatever the comparator does otherwise (inconsistent answers, side effects, answers that change while a directory is sorted), a call that returns still shows, per directory, entries of one listing that passed the filter, none more often than listed, all of them unless the child limit forbids it, and the \"more\" marker exactly if some are left out. Scanning can only throw what the file system, a callback or the comparator itself throws, or an IllegalArgumentException of the JDK sort, and the latter only if some directory has at least 32 entries to sort; this complaint does occur, an ArrayIndexOutOfBoundsException of the sort never does. The comparator matters only for pairs of entries of the same directory that passed the filter.", "quantifier": "every comparator (effectful, inconsistent, throwing), every file system also changing during the call, all options", "why_tests_cant": "inconsistent comparators have no finite set of representatives, and the sort behaves differently for inputs of different size and order", "anchors": ["jfiletreeprettyprinter-core/src/main/java/io/github/computerdaddyguy/jfiletreeprettyprinter/scanner/DefaultPathToTreeScanner.java", "jfiletreeprettyprinter-core/src/main/java/io/github/computerdaddyguy/jfiletreeprettyprinter/options/PathSorts.java", "jfiletreeprettyprinter-core/src/main/java/io/github/computerdaddyguy/jfiletreeprettyprinter/options/PathSortBuilder.java", "jfiletreeprettyprinter-core/src/main/java/io/github/computerdaddyguy/jfiletreeprettyprinter/options/PrettyPrintOptions.java"]}
{"id": "C72", "title": "The returned text when everything changes during the call", "statement": "Even if the file system changes between any two accesses, all callbacks are stateful and the comparator answers arbitrarily, a text returned by prettyPrint is the standard picture of one tree: every directory line comes from a directory that said it is one, its content from a single listing of it (filtered, limited, cut at the maximum depth), every line shows only the printed path or paths that a listing contained and the filter accepted, with an emoji and an extension that were answered for that path; directories share a line only if all but the last answered 'no extension' and contained just the next one. With callbacks that are functions of the path this leaves exactly the display of the other properties.", "quantifier": "every file system with arbitrary changes, every stateful callback and comparator, every path", "why_tests_cant": "schedules of changes and stateful callbacks are unbounded", "anchors": ["jfiletreeprettyprinter-core/src/main/java/io/github/computerdaddyguy/jfiletreeprettyprinter/DefaultFileTreePrettyPrinter.java#prettyPrint", "jfiletreeprettyprinter-core/src/main/java/io/github/computerdaddyguy/jfiletreeprettyprinter/renderer/DefaultTreeEntryRenderer.java#renderTree", "jfiletreeprettyprinter-core/src/main/java/io/github/computerdaddyguy/jfiletreeprettyprinter/scanner/DefaultPathToTreeScanner.java#handle"]}
{"id": "C73", "title": "Printers can be used by several threads at once", "statement": "Several threads may print at the same time with the same printer and the same options, interrupted at any point by each other and by anything else. As long as the answers of the file system and of the callbacks do not change, every call that ends has the result (text or exception) of a call that is alone; the matchers, orders, limits, extensions and emoji mappings of the library keep fixed answers, although one question of them may be several accesses to the disk. If they do change, or callbacks share state between threads, a returned text is still the picture of a correct tree for possible answers (C72). No call waits for another one, and every call ends after finitely many steps, also if the file system keeps growing.", "quantifier": "every number of threads, every schedule, every environment", "why_tests_cant": "interleavings are unbounded; races do not show up reliably in tests", "anchors": ["jfiletreeprettyprinter-core/src/main/java/io/github/computerdaddyguy/jfiletreeprettyprinter/DefaultFileTreePrettyPrinter.java#prettyPrint", "jfiletreeprettyprinter-core/src/main/java/io/github/computerdaddyguy/jfiletreeprettyprinter/scanner/DefaultPathToTreeScanner.java#handle", "jfiletreeprettyprinter-core/src/main/java/io/github/computerdaddyguy/jfiletreeprettyprinter/renderer/DefaultTreeEntryRenderer.java#renderTree", "jfiletreeprettyprinter-core/src/main/java/io/github/computerdaddyguy/jfiletreeprettyprinter/options/PathMatchers.java#testDescendants", "jfiletreeprettyprinter-core/src/main/java/io/github/computerdaddyguy/jfiletreeprettyprinter/options/PathSorts.java#DIRECTORY_FIRST"]}
{"id": "C74", "title": "Filtering for matching files and the directories that lead to them", "statement": "With filterDirectories(hasAnyDescendantMatching(m)) and filterFiles(m), a successful call shows exactly the files that match m (down to the maximal depth, without child limit), however deep they are and whatever the directories on the way are called, and a directory is shown exactly if something below it matches. With child limits, still nothing else is shown. If m matches no directories, no directory is shown without a shown file below it; if m also matches directories, a directory may be shown empty.", "quantifier": "every file system, every (possibly throwing) matcher, every depth", "why_tests_cant": "needs the interplay of two filters with a walk at every level; the display condition is global (any descendant) while the scan is local", "anchors": ["jfiletreeprettyprinter-core/src/main/java/io/github/computerdaddyguy/jfiletreeprettyprinter/options/PathMatchers.java#hasAnyDescendantMatching", "jfiletreeprettyprinter-core/src/main/java/io/github/computerdaddyguy/jfiletreeprettyprinter/options/PathMatchers.java#testDescendants", "jfiletreeprettyprinter-core/src/main/java/io/github/computerdaddyguy/jfiletreeprettyprinter/options/PrettyPrintOptions.java#pathFilter", "jfiletreeprettyprinter-core/src/main/java/io/github/computerdaddyguy/jfiletreeprettyprinter/scanner/DefaultPathToTreeScanner.java#handleDirectory"]}
{"id": "C75", "title": "Changing the options while a call is running", "statement": "If the options object is modified while prettyPrint is running (by a callback of the call, or by another thread), a returned text is still the standard picture of a correct tree: the filters are those of the moment the call started and the tree format and the emojis those of the moment the printer was built, whatever they are set to later; depth limit, child limit and order are, directory by directory, and extension function and compact switch, line by line, ones that were set at some moment. Nothing is deeper than the largest depth limit that was ever set, and the call always ends. In one thread, every line has the extension of the function that is set when it is written. From another thread, disabling the line extension at the wrong moment can make the call throw a NullPointerException. Without modification this is the call of the other properties.", "quantifier": "every file system with arbitrary changes, every sequence of modifications at any points of the call, every state of callbacks", "why_tests_cant": "the points at which options can change are unbounded; the race needs a precise interleaving", "anchors": ["jfiletreeprettyprinter-core/src/main/java/io/github/computerdaddyguy/jfiletreeprettyprinter/DefaultFileTreePrettyPrinter.java#prettyPrint", "jfiletreeprettyprinter-core/src/main/java/io/github/computerdaddyguy/jfiletreeprettyprinter/scanner/DefaultPathToTreeScanner.java#handleDirectory", "jfiletreeprettyprinter-core/src/main/java/io/github/computerdaddyguy/jfiletreeprettyprinter/renderer/DefaultTreeEntryRenderer.java#computeLineExtension", "jfiletreeprettyprinter-core/src/main/java/io/github/computerdaddyguy/jfiletreeprettyprinter/renderer/DefaultTreeEntryRenderer.java#renderDirectory", "jfiletreeprettyprinter-core/src/main/java/io/github/computerdaddyguy/jfiletreeprettyprinter/options/PrettyPrintOptions.java#pathFilter"]}
{"id": "C76", "title": "Where exceptions come from", "statement": "If prettyPrint throws, then there is one of these reasons: a directory that was reached could not be opened (UncheckedIOException) or read to its end (DirectoryIteratorException), or the attributes of a reached path that is not a directory could not be read (UncheckedIOException), and the exception is about that path; the file system itself threw, and the exception is passed on; a callback (child limit, filter, emojis, line extension, comparator) threw for a reached path, and its exception is passed on unchanged; the root of the file system is printed (NullPointerException); or the sort of the JDK complained about a comparator that breaks its contract, which needs a directory with 32 entries. Filters are only called for paths that are directories (filterDirectories) or are not (filterFiles). Matchers made by PathMatchers throw only what the matchers given to them throw, what the file system throws, and UncheckedIOException for a failing walk; functions made by the builders throw only what their rules throw. So with callbacks that do not throw and a file system that does not fail, no call throws, unless the root is printed.", "quantifier": "every file system with arbitrary changes during the call (by other threads too), every option, all callbacks, every combination of library matchers", "why_tests_cant": "the absence of any other exception, for all options, trees and failure points, cannot be tested", "anchors": ["jfiletreeprettyprinter-core/src/main/java/io/github/computerdaddyguy/jfiletreeprettyprinter/scanner/DefaultPathToTreeScanner.java#handle", "jfiletreeprettyprinter-core/src/main/java/io/github/computerdaddyguy/jfiletreeprettyprinter/scanner/DefaultPathToTreeScanner.java#handleDirectory", "jfiletreeprettyprinter-core/src/main/java/io/github/computerdaddyguy/jfiletreeprettyprinter/scanner/DefaultPathToTreeScanner.java#handleFile", "jfiletreeprettyprinter-core/src/main/java/io/github/computerdaddyguy/jfiletreeprettyprinter/renderer/DefaultTreeEntryRenderer.java#renderTree", "jfiletreeprettyprinter-core/src/main/java/io/github/computerdaddyguy/jfiletreeprettyprinter/renderer/DefaultFileFormatter.java#formatFile", "jfiletreeprettyprinter-core/src/main/java/io/github/computerdaddyguy/jfiletreeprettyprinter/options/PathMatchers.java#testDescendants", "jfiletreeprettyprinter-core/src/main/java/io/github/computerdaddyguy/jfiletreeprettyprinter/DefaultFileTreePrettyPrinter.java#prettyPrint"]}
{"id": "C77", "title": "Null arguments are rejected at once and leave no trace", "statement": "Every configuration call and factory with a null argument throws NullPointerException at the call itself, not later when the object is used, and leaves the object as it was: after any sequence of calls of which some were rejected (and the exception caught), options, builders and printers are as if the rejected calls had never been made. Exceptions: withLineExtension(null) disables the line extension; the text of LineExtensionBuilder.add(matcher, null) may be null, and then the rule has no effect as long as the matcher answers. A tree format with a null symbol is rejected as null even if the other symbols have different lengths; allOf/anyOf/noneOf reject null elements, and an empty Iterable with IllegalArgumentException; with variable arguments they always succeed if nothing is null. customizeOptions is not atomic: if the customizer throws or returns null, what it has already set stays set, but the builder keeps its options object. Printing null throws before the file system is touched.", "quantifier": "all sequences of calls on all objects, all combinations of null and non-null arguments, all customizers", "why_tests_cant": "sequences of calls with failures in between are unbounded", "anchors": ["jfiletreeprettyprinter-core/src/main/java/io/github/computerdaddyguy/jfiletreeprettyprinter/options/PrettyPrintOptions.java#withTreeFormat", "jfiletreeprettyprinter-core/src/main/java/io/github/computerdaddyguy/jfiletreeprettyprinter/options/PrettyPrintOptions.java#withLineExtension", "jfiletreeprettyprinter-core/src/main/java/io/github/computerdaddyguy/jfiletreeprettyprinter/options/LineExtensionBuilder.java#add", "jfiletreeprettyprinter-core/src/main/java/io/github/computerdaddyguy/jfiletreeprettyprinter/options/ChildLimitBuilder.java#add", "jfiletreeprettyprinter-core/src/main/java/io/github/computerdaddyguy/jfiletreeprettyprinter/options/PathSortBuilder.java#add", "jfiletreeprettyprinter-core/src/main/java/io/github/computerdaddyguy/jfiletreeprettyprinter/options/DefaultEmojiMappingBuilder.java#setFileNameEmoji", "jfiletreeprettyprinter-core/src/main/java/io/github/computerdaddyguy/jfiletreeprettyprinter/options/PathMatchers.java#buildSafeList", "jfiletreeprettyprinter-core/src/main/java/io/github/computerdaddyguy/jfiletreeprettyprinter/options/PathMatchers.java#combineMatchers", "jfiletreeprettyprinter-core/src/main/java/io/github/computerdaddyguy/jfiletreeprettyprinter/options/TreeFormat.java#ensureAllSameLength", "jfiletreeprettyprinter-core/src/main/java/io/github/computerdaddyguy/jfiletreeprettyprinter/FileTreePrettyPrinterBuilder.java#customizeOptions"]}
{"id": "C78", "title": "Globs mean what the documentation says", "statement": "For every glob written according to the documentation of FileSystem.getPathMatcher (literal text with or without backslashes, *, **, ?, bracket expressions with ranges, negation and hyphens at the start or end, groups of alternatives, in any order and number), hasNameMatchingGlob, hasAbsolutePathMatchingGlob and hasRelativePathMatchingGlob succeed and give a matcher that accepts a path exactly if the last name, the absolute normalized path, or the way from the reference to the path is one of the strings that the pattern describes (* any characters but /, ** any characters but line ends, ? and brackets one character that is not /, groups any alternative). Paths that climb above the working directory are excepted for the absolute form, see C45. The pattern * alone is not looked at as a pattern: with it all three accept every path, of any number of names (as documented).", "quantifier": "For all well-formed patterns of any length (in brackets: any Unicode characters, ranges as far as C114 says), all paths, all working directories and references; characters outside the basic plane count as one character.", "why_tests_cant": "Patterns and names are unbounded; greedy matching with backtracking must be shown to find a way to split the name whenever there is one.", "anchors": ["jfiletreeprettyprinter-core/src/main/java/io/github/computerdaddyguy/jfiletreeprettyprinter/options/PathMatchers.java#hasNameMatchingGlob", "jfiletreeprettyprinter-core/src/main/java/io/github/computerdaddyguy/jfiletreeprettyprinter/options/PathMatchers.java#hasAbsolutePathMatchingGlob", "jfiletreeprettyprinter-core/src/main/java/io/github/computerdaddyguy/jfiletreeprettyprinter/options/PathMatchers.java#hasRelativePathMatchingGlob", "README.md:496"]}
{"id": "C79", "title": "Everyday globs equal the simple matchers", "statement": "A glob without special characters is hasName; with a backslash before every character any text is taken literally; *text is hasNameEndingWith, *.ext is hasExtension, text* is hasNameStartingWith, *text* finds the names that contain the text; a relative ** accepts every path below the reference whose names have no line breaks; dir/** accepts what is strictly below the directory, not the directory itself and not its parents; **/name accepts all paths with that name (no line breaks in the parents); {a,b} accepts what one of the globs a, b accepts.", "quantifier": "For all texts without glob characters (and no cut surrogate pair at the star), all paths.", "why_tests_cant": "Equality of matchers on all names; tests compare some names.", "anchors": ["jfiletreeprettyprinter-core/src/main/java/io/github/computerdaddyguy/jfiletreeprettyprinter/options/PathMatchers.java#hasExtension", "jfiletreeprettyprinter-core/src/main/java/io/github/computerdaddyguy/jfiletreeprettyprinter/options/PathMatchers.java#hasNameMatchingGlob", "jfiletreeprettyprinter-core/src/main/java/io/github/computerdaddyguy/jfiletreeprettyprinter/options/PathMatchers.java#hasAbsolutePathMatchingGlob", "README.md:489"]}
{"id": "C80", "title": "Directory filters with a slash in the glob hide all subdirectories", "statement": "A name glob with a slash outside of groups accepts no path at all. If such a glob is used for directories - as name glob, or as path glob relative to the printed path, in the API or in the options file (README: dir: {type: name, glob: \"src/main/**\"}; path glob src/main/java/**) - then the output contains no subdirectory: only the printed directory and files directly in it.", "quantifier": "For all file systems, all such globs, all options and all file filters.", "why_tests_cant": "A statement about all trees and all such patterns: the example of the README can never show what it seems to ask for.", "anchors": ["jfiletreeprettyprinter-core/src/main/java/io/github/computerdaddyguy/jfiletreeprettyprinter/options/PathMatchers.java#hasNameMatchingGlob", "jfiletreeprettyprinter-core/src/main/java/io/github/computerdaddyguy/jfiletreeprettyprinter/scanner/DefaultPathToTreeScanner.java#handleDirectory", "README.md:474"]}
{"id": "C81", "title": "Malformed globs are rejected when the matcher is created", "statement": "Patterns are accepted exactly if they can be written according to the documentation (a hyphen before the closing bracket stands for itself), otherwise creation of the matcher fails with PatternSyntaxException (an IllegalArgumentException). A pattern that ends in a backslash, in an open bracket or an open group, has a slash in brackets, a range whose end is before its start, or a group within a group is rejected.", "quantifier": "For all patterns apart from odd bracket expressions (nothing or only ! between the brackets, surrogates without partner, a range that ends in [ or a backslash, a character beyond U+FFFF before a hyphen) (exact), and for all continuations of well-formed patterns (rejection).", "why_tests_cant": "All strings are possible patterns; tests try a few.", "anchors": ["jfiletreeprettyprinter-core/src/main/java/io/github/computerdaddyguy/jfiletreeprettyprinter/options/PathMatchers.java#hasNameMatchingGlob", "jfiletreeprettyprinter-core/src/main/java/io/github/computerdaddyguy/jfiletreeprettyprinter/options/PathMatchers.java#hasAbsolutePathMatchingGlob"]}
{"id": "C82", "title": "Directories excluded by a filter are opened again for what has to be shown", "statement": "With filterDirectories(anyOf(..., hasAnyDescendantMatching(m), ...)) — the form used by the example that prints the structure of the project itself — a file matching m is displayed exactly if it passes the file filter (down to the maximal depth, without child limit), whatever the other matchers of anyOf say about the directories on the way to it, and so is every directory that leads to a match of m. Apart from the printed path, nothing is displayed that is not accepted by the file filter or one of the matchers of anyOf.", "quantifier": "every file system, every list of (possibly throwing) matchers with hasAnyDescendantMatching(m) at any position, every file filter, every depth", "why_tests_cant": "needs the interplay of a combined matcher, its short-circuit evaluation, a walk at every level and the scan; the display condition is global while the scan is local", "anchors": ["jfiletreeprettyprinter-core/src/main/java/io/github/computerdaddyguy/jfiletreeprettyprinter/options/PathMatchers.java#hasAnyDescendantMatching", "jfiletreeprettyprinter-core/src/main/java/io/github/computerdaddyguy/jfiletreeprettyprinter/options/PathMatchers.java#anyOf", "jfiletreeprettyprinter-core/src/main/java/io/github/computerdaddyguy/jfiletreeprettyprinter/options/PrettyPrintOptions.java#pathFilter", "jfiletreeprettyprinter-core/src/main/java/io/github/computerdaddyguy/jfiletreeprettyprinter/scanner/DefaultPathToTreeScanner.java#handleDirectory", "jfiletreeprettyprinter-examples/src/main/java/io/github/computerdaddyguy/jfiletreeprettyprinter/example/ProjectStructure.java"]}
{"id": "C83", "title": "Moving or copying a directory does not change its text", "statement": "If two directories have the same name and the same content (the same names, kinds and attributes below them), whatever surrounds them, whichever working directory and spelling of the path is used and in whichever order the file system lists entries, then both are printed with exactly the same text, or for neither of them a text is returned. This needs no condition for tree formats, depth limits, fixed child limits, compact directories and emojis by name and extension (for the sorts and conditions of the library see C116); user-written functions have to answer for everything found at both places the same. If the directories have different names, the texts differ only in the label of the printed directory itself: everything after it is the same.", "quantifier": "all pairs of file systems, places, working directories and spellings of paths; all options whose callbacks answer alike at both places", "why_tests_cant": "a test prints a directory at one place; it cannot compare all pairs of places, surroundings and listing orders", "anchors": ["jfiletreeprettyprinter-core/src/main/java/io/github/computerdaddyguy/jfiletreeprettyprinter/FileTreePrettyPrinter.java#prettyPrint", "jfiletreeprettyprinter-core/src/main/java/io/github/computerdaddyguy/jfiletreeprettyprinter/DefaultFileTreePrettyPrinter.java#prettyPrint", "jfiletreeprettyprinter-core/src/main/java/io/github/computerdaddyguy/jfiletreeprettyprinter/scanner/DefaultPathToTreeScanner.java#handleDirectory", "jfiletreeprettyprinter-core/src/main/java/io/github/computerdaddyguy/jfiletreeprettyprinter/renderer/DefaultTreeEntryRenderer.java", "jfiletreeprettyprinter-core/src/main/java/io/github/computerdaddyguy/jfiletreeprettyprinter/options/PathSorts.java#ALPHABETICAL", "jfiletreeprettyprinter-core/src/main/java/io/github/computerdaddyguy/jfiletreeprettyprinter/options/DefaultEmojiMapping.java#getPathEmoji"]}
{"id": "C84", "title": "One more file is one more line", "statement": "If one file that passes the file filter is added to a directory that is displayed above the depth limit, and there is no child limit, then the tree gets exactly one more entry, in that directory, and all other entries stay as they are and in the same order. Without compact directories the text gets exactly one more line: the label of the new file, one level below its directory. All other labels keep their text, depth and order.", "quantifier": "all file systems, paths, added files, and options without child limit whose comparator obeys the Comparator contract and does not consider different entries equal", "why_tests_cant": "a test compares one tree before and after; it cannot cover every tree, every place of the new file and every order in which the file system lists entries", "anchors": ["jfiletreeprettyprinter-core/src/main/java/io/github/computerdaddyguy/jfiletreeprettyprinter/scanner/DefaultPathToTreeScanner.java#handleDirectory", "jfiletreeprettyprinter-core/src/main/java/io/github/computerdaddyguy/jfiletreeprettyprinter/scanner/DefaultPathToTreeScanner.java#handleDirectoryChildren", "jfiletreeprettyprinter-core/src/main/java/io/github/computerdaddyguy/jfiletreeprettyprinter/renderer/DefaultTreeEntryRenderer.java#renderDirectory", "jfiletreeprettyprinter-core/src/main/java/io/github/computerdaddyguy/jfiletreeprettyprinter/options/PrettyPrintOptions.java#fileMatcher"]}
{"id": "C85", "title": "Reversing the sort order mirrors the tree", "statement": "If a comparator never considers two different entries of one directory equal and there is no child limit, then sorting with the reversed comparator gives the same tree with the children of every directory in reverse order: the same entries, the same labels, the same depths. In particular this holds for ALPHABETICAL and its reverse. Mirroring twice gives the tree back.", "quantifier": "all file systems, paths, comparators that obey the Comparator contract, and options without child limit", "why_tests_cant": "a test compares a few directories; it cannot cover every tree, comparator and compact chain", "anchors": ["jfiletreeprettyprinter-core/src/main/java/io/github/computerdaddyguy/jfiletreeprettyprinter/options/PrettyPrintOptions.java#sort", "jfiletreeprettyprinter-core/src/main/java/io/github/computerdaddyguy/jfiletreeprettyprinter/options/PathSorts.java#ALPHABETICAL", "jfiletreeprettyprinter-core/src/main/java/io/github/computerdaddyguy/jfiletreeprettyprinter/scanner/DefaultPathToTreeScanner.java#handleDirectoryChildren", "jfiletreeprettyprinter-core/src/main/java/io/github/computerdaddyguy/jfiletreeprettyprinter/renderer/DefaultTreeEntryRenderer.java#renderDirectory"]}
{"id": "C86", "title": "The command line prints the text its options document asks for", "statement": "If the target exists and the options document for it (the one given, else the first .prettyprint found in the target, the working directory and the home directory, else the empty document) is valid and its globs are well formed, then the standard output is the picture, with the default symbols and a line break at the end, of: the target; below each directory above the document's maxDepth (20 if not given) those listed entries that pass the document's directory filter or file filter, in alphabetical order, cut by the document's child limit with a ... line; with the document's line extensions, emojis and compact directories. The exit code is 0. The document asks for at most one text. If it asks for none, because something cannot be read, nothing is printed and the exit code is 1.", "quantifier": "all machines (disks, working and home directories, options files), command lines without --debug, and documents", "why_tests_cant": "tests run a few command lines on a few directories; the claim composes option lookup, validation, mapping, globs, scanning, rendering and output for every disk and every document", "anchors": ["jfiletreeprettyprinter-cli/src/main/java/io/github/computerdaddyguy/jfiletreeprettyprinter/cli/PrettyPrintCommand.java#call", "jfiletreeprettyprinter-cli/src/main/java/io/github/computerdaddyguy/jfiletreeprettyprinter/cli/options/DefaultOptionsLoader.java#loadOptions", "jfiletreeprettyprinter-cli/src/main/java/io/github/computerdaddyguy/jfiletreeprettyprinter/cli/options/mapper/DefaultExternalOptionsMapper.java#mapToOptions", "jfiletreeprettyprinter-cli/src/main/java/io/github/computerdaddyguy/jfiletreeprettyprinter/cli/options/reader/FallbackExternalOptionsReader.java#readExternalOptions", "jfiletreeprettyprinter-core/src/main/java/io/github/computerdaddyguy/jfiletreeprettyprinter/DefaultFileTreePrettyPrinter.java#prettyPrint"]}
{"id": "C87", "title": "What a schema-conforming options file prints, with the documented meaning of globs", "statement": "Let the file given with --options contain a document that conforms to the published JSON schema, has no empty list or glob and no number beyond 32 bits. If all its globs are written as the documentation of FileSystem.getPathMatcher says, the run prints exactly the text the document asks for, each glob having its documented meaning, with exit code 0 (or nothing with exit code 1 if something cannot be read). If one of its globs is not written like this, nothing is printed and the exit code is 1, even if that glob would never be needed.", "quantifier": "all machines (disks, working and home directories), command lines without --debug, all conforming documents, all globs (for rejection: apart from odd bracket expressions as in C81)", "why_tests_cant": "the claim composes schema, binding, validation, globs, mapping, scanning and rendering; tests use a handful of option files", "anchors": ["jfiletreeprettyprinter-cli/src/main/java/io/github/computerdaddyguy/jfiletreeprettyprinter/cli/PrettyPrintCommand.java#call", "jfiletreeprettyprinter-cli/src/main/java/io/github/computerdaddyguy/jfiletreeprettyprinter/cli/options/mapper/DefaultExternalOptionsMapper.java#mapMatcher", "jfiletreeprettyprinter-core/src/main/java/io/github/computerdaddyguy/jfiletreeprettyprinter/options/PathMatchers.java#hasNameMatchingGlob", "jfiletreeprettyprinter-core/src/main/java/io/github/computerdaddyguy/jfiletreeprettyprinter/options/PathMatchers.java#hasRelativePathMatchingGlob"]}
{"id": "C88", "title": "The sort order only permutes siblings", "statement": "If there is no child limit, sorting with another comparator does not change whether a call returns, which entries are shown below which directory, or any label: the two trees are the same up to the order of siblings. So the two texts have the same labels at the same depths, the same number of lines and the same length.", "quantifier": "all file systems that do not change during a call, all comparators that obey the Comparator contract, all options without child limit", "why_tests_cant": "relates two runs for all comparators and trees", "anchors": ["jfiletreeprettyprinter-core/src/main/java/io/github/computerdaddyguy/jfiletreeprettyprinter/scanner/DefaultPathToTreeScanner.java#directoryStreamToIterator", "jfiletreeprettyprinter-core/src/main/java/io/github/computerdaddyguy/jfiletreeprettyprinter/options/PrettyPrintOptions.java#sort", "jfiletreeprettyprinter-core/src/main/java/io/github/computerdaddyguy/jfiletreeprettyprinter/renderer/DefaultTreeEntryRenderer.java#renderTree"]}
{"id": "C89", "title": "The tree format only decides about the connectors", "statement": "Whatever the tree format, printing makes the same accesses and callback calls and throws the same exceptions; if it returns, then the texts for all formats are the pictures of one and the same tree of labels. Line by line the texts carry the same label at the same depth, formats with symbols of the same length give texts of the same length, and from the text in one readable format the text in any other format can be computed.", "quantifier": "all formats, options, file systems and callbacks (also with side effects)", "why_tests_cant": "relates runs with all tree formats on all trees", "anchors": ["jfiletreeprettyprinter-core/src/main/java/io/github/computerdaddyguy/jfiletreeprettyprinter/options/PrettyPrintOptions.java#withTreeFormat", "jfiletreeprettyprinter-core/src/main/java/io/github/computerdaddyguy/jfiletreeprettyprinter/renderer/DefaultTreeEntryRenderer.java#renderTree", "jfiletreeprettyprinter-core/src/main/java/io/github/computerdaddyguy/jfiletreeprettyprinter/renderer/DefaultTreeFormatter.java#format"]}
{"id": "C90", "title": "One more directory is one more block", "statement": "If an entry (a file, or a directory with everything below it) that passes its filter is added to a displayed directory above the depth limit, and there is no child limit, then the tree gains exactly one entry: what is found for the new entry alone, with the remaining depth. Without compact directories the text gains one block of lines, with the labels of the text of the new entry alone; all other labels stay the same, in the same order and at the same depth. The whole then returns a text exactly if the call for the new entry alone does. With or without compact directories, and whatever the filters, the limits and the sort order, an added entry changes no letter of the text outside the block of the directory it was added to: the same lines come before and after that block, and the line with that directory still shows it behind the same merged parents, if any.", "quantifier": "all file systems (proper listings), comparators, filters, extensions, emojis and positions of the new entry", "why_tests_cant": "relates runs before and after an arbitrary addition to an arbitrary tree", "anchors": ["jfiletreeprettyprinter-core/src/main/java/io/github/computerdaddyguy/jfiletreeprettyprinter/scanner/DefaultPathToTreeScanner.java#handle", "jfiletreeprettyprinter-core/src/main/java/io/github/computerdaddyguy/jfiletreeprettyprinter/scanner/DefaultPathToTreeScanner.java#handleDirectoryChildren", "jfiletreeprettyprinter-core/src/main/java/io/github/computerdaddyguy/jfiletreeprettyprinter/renderer/DefaultTreeEntryRenderer.java#renderTree"]}
{"id": "C91", "title": "A change inside a directory stays inside its block", "statement": "If two file systems differ only in one displayed entry and what lies below it (a directory in both, or in none), then the two trees are the same except for that entry, whatever the filters, limits and the sort order. Without compact directories the two texts have the same labels at the same depths before and after the block of that entry, and the blocks have the labels of the texts for that entry alone, with the remaining depth. If the entry is not displayed, the change is not noticed at all. Without compact directories the call for the whole returns a text after the change exactly if the call for the changed entry alone does. With or without compact directories, if both calls return a text, all lines before and after the block of that entry are the same, letter by letter; the block starts with the line that shows the entry, possibly behind parents with which it is merged (the same in both texts), all its other lines are deeper, and they show only what lies inside the entry.", "quantifier": "all file systems (proper listings), comparators that are functions of the paths, filters, limits, extensions and emojis", "why_tests_cant": "relates runs before and after an arbitrary change in an arbitrary tree", "anchors": ["jfiletreeprettyprinter-core/src/main/java/io/github/computerdaddyguy/jfiletreeprettyprinter/scanner/DefaultPathToTreeScanner.java#handle", "jfiletreeprettyprinter-core/src/main/java/io/github/computerdaddyguy/jfiletreeprettyprinter/scanner/DefaultPathToTreeScanner.java#handleDirectoryChildren", "jfiletreeprettyprinter-core/src/main/java/io/github/computerdaddyguy/jfiletreeprettyprinter/renderer/DefaultTreeEntryRenderer.java#renderTree"]}
{"id": "C92", "title": "What --version tells", "statement": "The version information has five lines: program name and version, description, repository, commit with its time, build time. Each place shows the value the manifest records for it (attribute names ignore case), or the word unknown if it records none or there is no manifest. It fails exactly if the manifest cannot be read.", "quantifier": "all manifests", "why_tests_cant": "quantifies over all manifests, including missing and malformed ones; the tests never build one", "anchors": ["jfiletreeprettyprinter-cli/src/main/java/io/github/computerdaddyguy/jfiletreeprettyprinter/cli/ManifestVersionProvider.java#getVersion", "jfiletreeprettyprinter-cli/src/main/java/io/github/computerdaddyguy/jfiletreeprettyprinter/cli/ManifestVersionProvider.java#valueOrUnknown"]}
{"id": "C93", "title": "The recipes of the README do what they promise", "statement": "In every directory: (1) with the filters of Filtering.java, the printed paths are exactly the printed one and what can be reached from it through directories whose names lack the given ending, files only with the given extension, down to the depth limit; (2) with the limits of ChildLimitDynamic.java, directories with the given name are shown but nothing inside them; such a directory has one line \"...\" below it if there was something to show and none otherwise, and no other directory has one for a child limit; (3) with the extensions of LineExtension.java, the line of a path carries the comment of the first of the listed places (relative to the printed path) that it is, else the comment for its extension, else none; (4) BasicUsage.java and FileTreeFormat.java show everything within 20 levels, MaxDepth.java everything within 3 levels with one '...' below each directory at the third, CompactDirectories.java leaves no directory below the printed one alone on a line before its only content, a directory; ChildLimitStatic.java shows the first three entries of each directory and '...' if there are more; Sorting.java shows directories before other entries and both groups in alphabetical order.", "quantifier": "all file systems, names, endings, extensions, lists of places and options the recipe is added to", "why_tests_cant": "the claim is about every directory, name and list of places; the tests run each recipe on one prepared directory", "anchors": ["jfiletreeprettyprinter-examples/src/main/java/io/github/computerdaddyguy/jfiletreeprettyprinter/example/Filtering.java#run", "jfiletreeprettyprinter-examples/src/main/java/io/github/computerdaddyguy/jfiletreeprettyprinter/example/ChildLimitDynamic.java#run", "jfiletreeprettyprinter-examples/src/main/java/io/github/computerdaddyguy/jfiletreeprettyprinter/example/LineExtension.java#run", "jfiletreeprettyprinter-examples/src/main/java/io/github/computerdaddyguy/jfiletreeprettyprinter/example/BasicUsage.java#run", "jfiletreeprettyprinter-examples/src/main/java/io/github/computerdaddyguy/jfiletreeprettyprinter/example/FileTreeFormat.java#run", "jfiletreeprettyprinter-examples/src/main/java/io/github/computerdaddyguy/jfiletreeprettyprinter/example/MaxDepth.java#run", "jfiletreeprettyprinter-examples/src/main/java/io/github/computerdaddyguy/jfiletreeprettyprinter/example/CompactDirectories.java#run", "jfiletreeprettyprinter-examples/src/main/java/io/github/computerdaddyguy/jfiletreeprettyprinter/example/ChildLimitStatic.java#run", "jfiletreeprettyprinter-examples/src/main/java/io/github/computerdaddyguy/jfiletreeprettyprinter/example/Sorting.java#run", "README.md:124"]}
{"id": "C94", "title": "Emojis and depth marker as shown in the README", "statement": "With the default emojis, directories and all files with the names and extensions listed in the README (any spelling in upper and lower case, any text before the extension) get the emoji the README shows for them, and a directory at the depth limit has the line '... (max depth reached)'. FALSE in three places: docx files get a memo, not a page; readme gets a blue book, not an open book; the words '(max depth reached)' are never printed. The other ten emojis are right.", "quantifier": "all file systems, locales and file names", "why_tests_cant": "about all names with an extension; the tests check one file per row, and nothing compares the README with the output", "anchors": ["jfiletreeprettyprinter-core/src/main/java/io/github/computerdaddyguy/jfiletreeprettyprinter/options/DefaultEmojiMappingBuilder.java#newDefaultInstance", "jfiletreeprettyprinter-examples/src/main/java/io/github/computerdaddyguy/jfiletreeprettyprinter/example/Emojis.java#run", "jfiletreeprettyprinter-examples/src/main/java/io/github/computerdaddyguy/jfiletreeprettyprinter/example/MaxDepth.java#run", "README.md:198", "README.md:350"]}
{"id": "C95", "title": "The place of every path when filters, order, child limits and depth act together", "statement": "With any directory and file filters, any lawful sort order, any child limit function and any maximal depth together: a path is displayed iff it is the printed path, or it is listed in a displayed directory above the maximal depth, passes the filter for its kind, and fewer of its accepted siblings are sorted before it than the child limit of that directory allows (any number for a negative limit). In the display of the directory it is entry number i, where i is the number of accepted siblings sorted before it.", "quantifier": "all file systems, filters, comparators that distinguish siblings (every sort() does), child limit functions, depths, printed paths", "why_tests_cant": "about the interplay of four options on arbitrary trees; tests vary one option at a time on a few directories", "anchors": ["jfiletreeprettyprinter-core/src/main/java/io/github/computerdaddyguy/jfiletreeprettyprinter/scanner/DefaultPathToTreeScanner.java#handleDirectory", "jfiletreeprettyprinter-core/src/main/java/io/github/computerdaddyguy/jfiletreeprettyprinter/scanner/DefaultPathToTreeScanner.java#handleDirectoryChildren", "jfiletreeprettyprinter-core/src/main/java/io/github/computerdaddyguy/jfiletreeprettyprinter/options/PrettyPrintOptions.java#pathFilter"]}
{"id": "C96", "title": "Path globs, segment by segment: ** stands for one or more names", "statement": "A path glob is read between its slashes like the path: every segment that is a pattern for names (text, *, ?, brackets, groups, without slash) stands for exactly one name, and every segment ** stands for one or more names, never for none (names with line breaks apart). For absolute globs an empty name stands before the first slash. So src/**/*.java does not accept src/A.java, and **/*.java as a relative glob does not accept files directly in the reference directory. The glob * alone is the exception: it accepts every path (C78).", "quantifier": "all globs made of such segments, all paths", "why_tests_cant": "about all patterns and paths; the tests use a handful of globs, none of them with ** in the middle and nothing to match it", "anchors": ["jfiletreeprettyprinter-core/src/main/java/io/github/computerdaddyguy/jfiletreeprettyprinter/options/PathMatchers.java#hasAbsolutePathMatchingGlob", "jfiletreeprettyprinter-core/src/main/java/io/github/computerdaddyguy/jfiletreeprettyprinter/options/PathMatchers.java#hasRelativePathMatchingGlob", "README.md:492"]}
{"id": "C97", "title": "What the complete example shows of any project folder", "statement": "Run in any directory, ProjectStructure.java makes its options without exception, and what it prints of the parent directory is exactly this: a directory is shown if FileTreePrettyPrinter.java lies somewhere in it, or if it is not hidden, not target or src of the project folder and not inside the src of a module; a file outside the core module is shown if it is not hidden, in the core module only FileTreePrettyPrinter.java; nothing is shown inside the modules examples and cli, and in the core module only the first entry. In each directory come core, examples, cli, assets, docs, the other directories, the files, each group by name, and the line ... ends the directory exactly if something accepted has no room. The comments are those of the source code.", "quantifier": "all directory trees (names on one line), all current directories", "why_tests_cant": "the test of the example prints one checkout; here every content of the project folder is meant (e.g. without build directories, where the core module has no line ...)", "anchors": ["jfiletreeprettyprinter-examples/src/main/java/io/github/computerdaddyguy/jfiletreeprettyprinter/example/ProjectStructure.java#run", "jfiletreeprettyprinter-core/src/main/java/io/github/computerdaddyguy/jfiletreeprettyprinter/options/PathMatchers.java#hasAnyDescendantMatching", "jfiletreeprettyprinter-core/src/main/java/io/github/computerdaddyguy/jfiletreeprettyprinter/options/PathSorts.java#builder", "jfiletreeprettyprinter-core/src/main/java/io/github/computerdaddyguy/jfiletreeprettyprinter/options/ChildLimits.java#builder", "jfiletreeprettyprinter-core/src/main/java/io/github/computerdaddyguy/jfiletreeprettyprinter/options/LineExtensions.java#builder"]}
{"id": "C98", "title": "What a child limit saves, and what it does not", "statement": "The documentation of withChildLimit promises that it limits the number of visited children and is useful to avoid listing known-ahead huge directories. It is false that listing is avoided: every displayed directory above the maximal depth is opened, listed to its end and each of its entries is given to a filter, whatever the limit, also 0; so a directory that cannot be listed makes printing fail with every limit for it. A directory filter does protect: how a rejected directory can be listed has no influence. What smaller limits save are the accesses inside the entries that are not displayed: the accesses and filter calls of the scan are, in the same order, some of those with larger limits; with limit 0 for the printed directory they are exactly its listing and one filter call per entry.", "quantifier": "all file systems, options, limits and printed paths", "why_tests_cant": "a test counts the accesses for one directory and one limit; what is and is not accessed must hold for all", "anchors": ["jfiletreeprettyprinter-core/src/main/java/io/github/computerdaddyguy/jfiletreeprettyprinter/options/PrettyPrintOptions.java#withChildLimit", "jfiletreeprettyprinter-core/src/main/java/io/github/computerdaddyguy/jfiletreeprettyprinter/scanner/DefaultPathToTreeScanner.java#handleDirectory", "jfiletreeprettyprinter-core/src/main/java/io/github/computerdaddyguy/jfiletreeprettyprinter/scanner/DefaultPathToTreeScanner.java#handleDirectoryChildren"]}
{"id": "C99", "title": "Relative path matchers outside the reference directory", "statement": "The documentation of hasRelativePathMatchingGlob says that a path outside the reference directory (/tmp/file.java with the reference /home/user/project) makes the matcher throw IllegalArgumentException. It is false: on one root hasRelativePathMatching never throws of its own; every path is answered by the given matcher on the way from the reference, which has leading .. names for a path outside. A path glob other than * alone (which accepts everything) therefore answers for such paths by its segments, .. counting as a name; **/*.ext accepts outside the reference exactly the paths whose name ends with .ext, and the documented example (with a slash for its backslash, see C115) returns true for /tmp/file.java.", "quantifier": "all references, paths and path globs made of segments, all current directories", "why_tests_cant": "a test tries a few paths outside the reference; the claim is about all of them", "anchors": ["jfiletreeprettyprinter-core/src/main/java/io/github/computerdaddyguy/jfiletreeprettyprinter/options/PathMatchers.java#hasRelativePathMatching", "jfiletreeprettyprinter-core/src/main/java/io/github/computerdaddyguy/jfiletreeprettyprinter/options/PathMatchers.java#hasRelativePathMatchingGlob"]}
{"id": "C100", "title": "The printer on one page", "statement": "For every directory tree, with links, special files, links that lead nowhere and directories that cannot be listed, and for all choices of filters, order, limits, maximal depth, compact directories, emojis, line extensions and tree format, printing returns exactly the text of a program of one page: the accepted entries of each directory, sorted by the chosen order and then by name, cut at the limit with ... behind them, each below its branch symbol, directories with / and below the maximal depth with ..., an only directory on the line of its parent in compact mode. Printing fails if and only if the attributes of a displayed file cannot be read, a displayed directory above the maximal depth cannot be listed, or the printed path is the root.", "quantifier": "all finite directory trees, all option values with functional answers and a consistent order, all printed paths and current directories", "why_tests_cant": "a test compares the text of one tree with one combination of options; this fixes the text for all of them together", "anchors": ["jfiletreeprettyprinter-core/src/main/java/io/github/computerdaddyguy/jfiletreeprettyprinter/DefaultFileTreePrettyPrinter.java#prettyPrint", "jfiletreeprettyprinter-core/src/main/java/io/github/computerdaddyguy/jfiletreeprettyprinter/scanner/DefaultPathToTreeScanner.java#scan", "jfiletreeprettyprinter-core/src/main/java/io/github/computerdaddyguy/jfiletreeprettyprinter/renderer/DefaultTreeEntryRenderer.java#renderTree"]}
{"id": "C101", "title": "The command line program on one page", "statement": "For every disk, every options file and every call without debug output, the command line program prints exactly the text of a program of one page, followed by a line break, with exit code 0: the target is the given path or the working directory; the options document is the given file or the first one found in the target, the working directory and the home directory; its filters, limits, depth, compact switch, emojis and extensions are the choices of the one-page printer of C100. It prints nothing and ends with exit code 1 exactly if the target or a given options file does not exist, the chosen options file is not a readable valid document, a glob in it cannot be compiled, something displayed cannot be read, or the target is the root. (Texts with percent signs: see C53.)", "quantifier": "all disks, options documents, working and home directories, arguments without --debug", "why_tests_cant": "a test runs the program on one directory with one options file; this fixes the output for all of them", "anchors": ["jfiletreeprettyprinter-cli/src/main/java/io/github/computerdaddyguy/jfiletreeprettyprinter/cli/PrettyPrintCommand.java#call", "jfiletreeprettyprinter-core/src/main/java/io/github/computerdaddyguy/jfiletreeprettyprinter/DefaultFileTreePrettyPrinter.java#prettyPrint"]}
{"id": "C102", "title": "Matchers mean what their conditions say", "statement": "Take any condition written with the methods of PathMatchers, in any nesting: not, allOf, anyOf, noneOf, ifMatchesThenElse, path, glob, name, extension and kind matchers, matchers of parents, ancestors, children, descendants and siblings, and own matchers. The calls that make its matcher succeed exactly if no collection in it is empty and no glob in it is invalid. Every answer the matcher gives for a path is then true exactly if the condition, read as a sentence about the path and the file system, holds. If all directories can be listed and all attributes read, the matcher answers for every path.", "quantifier": "all conditions (any size and nesting), all paths, all file systems, working directories and globs", "why_tests_cant": "conditions nest without bound; each test checks one matcher on one path", "anchors": ["jfiletreeprettyprinter-core/src/main/java/io/github/computerdaddyguy/jfiletreeprettyprinter/options/PathMatchers.java#not", "jfiletreeprettyprinter-core/src/main/java/io/github/computerdaddyguy/jfiletreeprettyprinter/options/PathMatchers.java#hasAnyDescendantMatching", "jfiletreeprettyprinter-core/src/main/java/io/github/computerdaddyguy/jfiletreeprettyprinter/options/PathMatchers.java#hasSiblingMatching", "jfiletreeprettyprinter-core/src/main/java/io/github/computerdaddyguy/jfiletreeprettyprinter/options/PathMatchers.java#hasRelativePathMatching"]}
{"id": "C103", "title": "Programs that use the library print what their calls ask for", "statement": "Take any sequence of setter calls on new options, with arguments made by the builders of sorts, child limits, emoji mappings and line extensions, by own functions, and by arbitrarily nested conditions. The sequence succeeds exactly if every glob in it is valid, no collection of matchers is empty, tree symbols have equal lengths and no emoji names or extensions differ only in case. The printer with these options then prints, for every path, the text of the one-page program (C100) for the settings read off the calls: later calls replace earlier ones, conditions mean what they say (C102), the first rule with a non-default value decides. A printed text is this text even if parts of the disk cannot be read; if everything can be read, it is printed whenever the one-page program yields a text, and otherwise printing fails.", "quantifier": "all sequences of setter and builder calls, all conditions, all file systems, all paths", "why_tests_cant": "there are unboundedly many programs, conditions and directory trees; tests run a few of them", "anchors": ["jfiletreeprettyprinter-core/src/main/java/io/github/computerdaddyguy/jfiletreeprettyprinter/options/PrettyPrintOptions.java#withChildLimit", "jfiletreeprettyprinter-core/src/main/java/io/github/computerdaddyguy/jfiletreeprettyprinter/options/ChildLimitBuilder.java#build", "jfiletreeprettyprinter-core/src/main/java/io/github/computerdaddyguy/jfiletreeprettyprinter/options/PathSortBuilder.java#build", "jfiletreeprettyprinter-core/src/main/java/io/github/computerdaddyguy/jfiletreeprettyprinter/options/LineExtensionBuilder.java#build", "jfiletreeprettyprinter-core/src/main/java/io/github/computerdaddyguy/jfiletreeprettyprinter/options/DefaultEmojiMappingBuilder.java#build", "jfiletreeprettyprinter-core/src/main/java/io/github/computerdaddyguy/jfiletreeprettyprinter/DefaultFileTreePrettyPrinter.java#prettyPrint"]}
{"id": "C104", "title": "Programs that share and change options, builders and printers print what their history asks for", "statement": "Take any program that makes options, builders (of printers, sorts, child limits, line extensions and emoji mappings) and printers in any number, shares them between each other, changes them at any time and prints at any time. It runs to the end exactly if every statement uses objects that exist then and can succeed (C103). Each printing statement does exactly what a new printer with new options would do after the setter calls that have been made on its options object so far, except for calls that chose symbols or emojis after the printer was built; its options object is the last one given to its builder before it was built, otherwise the builder's own. In these calls, an object built earlier stands for the rules its builder had when it was built; but the default limit of a child limit builder is the present one, and conditions added to an emoji builder later count as well. So a printed text is the text of the one-page program (C100) for the settings read off the history, and where everything can be read it is printed whenever there is one.", "quantifier": "all programs: finite lists of statements of these kinds, all file systems, all paths", "why_tests_cant": "there are unboundedly many ways to share and change objects over time; tests build an object, use it once and drop it", "anchors": ["jfiletreeprettyprinter-core/src/main/java/io/github/computerdaddyguy/jfiletreeprettyprinter/FileTreePrettyPrinterBuilder.java#withOptions", "jfiletreeprettyprinter-core/src/main/java/io/github/computerdaddyguy/jfiletreeprettyprinter/FileTreePrettyPrinterBuilder.java#build", "jfiletreeprettyprinter-core/src/main/java/io/github/computerdaddyguy/jfiletreeprettyprinter/options/PrettyPrintOptions.java#withChildLimit", "jfiletreeprettyprinter-core/src/main/java/io/github/computerdaddyguy/jfiletreeprettyprinter/options/ChildLimitBuilder.java#build", "jfiletreeprettyprinter-core/src/main/java/io/github/computerdaddyguy/jfiletreeprettyprinter/options/DefaultEmojiMappingBuilder.java#build", "jfiletreeprettyprinter-core/src/main/java/io/github/computerdaddyguy/jfiletreeprettyprinter/options/PathMatcherEmojiFunction.java", "jfiletreeprettyprinter-core/src/main/java/io/github/computerdaddyguy/jfiletreeprettyprinter/DefaultFileTreePrettyPrinter.java#prettyPrint"]}
{"id": "C105", "title": "The programs of the README print the texts of the README", "statement": "Where the directories of the examples are in the working directory as they are in the repository, whatever else is on the disk, wherever the working directory is and in whatever order the directories are listed, BasicUsage, Filtering, Sorting, ChildLimitStatic, ChildLimitDynamic, LineExtension, CompactDirectories and FileTreeFormat print the texts that the README shows under their code, character by character. (For MaxDepth and Emojis this is false: MaxDepth prints `...` instead of `... (max depth reached)`, Emojis prints its lines in alphabetical order, with other emojis for `file.docx` and `readme`.)", "quantifier": "all file systems, working directories and listing orders; all ways in which globs outside the modelled syntax may be compiled; all locales that write ASCII letters in lower case as usual", "why_tests_cant": "no test runs the examples, and a test would run them on one disk; listing order and position of the working directory vary from machine to machine", "anchors": ["jfiletreeprettyprinter-examples/src/main/java/io/github/computerdaddyguy/jfiletreeprettyprinter/example/BasicUsage.java#main", "jfiletreeprettyprinter-examples/src/main/java/io/github/computerdaddyguy/jfiletreeprettyprinter/example/Filtering.java#main", "jfiletreeprettyprinter-examples/src/main/java/io/github/computerdaddyguy/jfiletreeprettyprinter/example/Sorting.java#main", "jfiletreeprettyprinter-examples/src/main/java/io/github/computerdaddyguy/jfiletreeprettyprinter/example/ChildLimitStatic.java#main", "jfiletreeprettyprinter-examples/src/main/java/io/github/computerdaddyguy/jfiletreeprettyprinter/example/ChildLimitDynamic.java#main", "jfiletreeprettyprinter-examples/src/main/java/io/github/computerdaddyguy/jfiletreeprettyprinter/example/LineExtension.java#main", "jfiletreeprettyprinter-examples/src/main/java/io/github/computerdaddyguy/jfiletreeprettyprinter/example/CompactDirectories.java#main", "jfiletreeprettyprinter-examples/src/main/java/io/github/computerdaddyguy/jfiletreeprettyprinter/example/FileTreeFormat.java#main", "jfiletreeprettyprinter-examples/src/main/java/io/github/computerdaddyguy/jfiletreeprettyprinter/example/MaxDepth.java#main", "jfiletreeprettyprinter-examples/src/main/java/io/github/computerdaddyguy/jfiletreeprettyprinter/example/Emojis.java#main", "README.md"]}
{"id": "C106", "title": "The complete example in a clone of the repository, and its expected result", "statement": "Run in any folder of a clone of the repository (a directory JFileTreePrettyPrinter with the files of the repository, below no directory named jfiletreeprettyprinter-core; hidden entries, a target or src folder of the project, any other files in the module core, anything below its src and directories after src in the alphabet may be there besides), ProjectStructure.java prints the expected result given in its source and in ProjectStructureTest exactly if the module core has another visible directory besides src (such as target, after a build). FALSE for a fresh clone: there the line ... of the module core is missing, and the two lines above it are drawn as the last ones.", "quantifier": "all file systems with a clone somewhere, all listing orders, all other content as described, all locales that write ASCII letters in lower case as usual", "why_tests_cant": "the test compares with one checkout, in which the module has been built before; it passes or fails depending on leftovers of the build", "anchors": ["jfiletreeprettyprinter-examples/src/main/java/io/github/computerdaddyguy/jfiletreeprettyprinter/example/ProjectStructure.java#run", "jfiletreeprettyprinter-examples/src/test/java/io/github/computerdaddyguy/jfiletreeprettyprinter/example/ProjectStructureTest.java#test"]}
{"id": "C107", "title": "The default emojis and the locale of the machine", "statement": "With the default emojis, the same directory printed under two locales gives a text under both or under none, and adding the default emojis never makes a call fail. Both texts are equal exactly if both locales give the same icon (by name, else by last extension, else the default one) to the name of every displayed file in lower case; so they are equal if the file names have only lower-case ASCII letters, digits, dots, hyphens and underscores. FALSE in general: under a Turkish or Azeri default locale the text differs from the usual one exactly if a displayed file is known by name and written with a capital I (LICENSE, CONTRIBUTING.md, SECURITY.md), or known by an extension written with a capital I (PHOTO.GIF, A.ZIP) - for ASCII file names.", "quantifier": "all file systems, all options with a lawful order, all pairs of lower-casings, all returned texts", "why_tests_cant": "tests run under the locale of one machine; no test changes the default locale", "anchors": ["jfiletreeprettyprinter-core/src/main/java/io/github/computerdaddyguy/jfiletreeprettyprinter/options/MappingUtils.java#toLowerCaseKeys", "jfiletreeprettyprinter-core/src/main/java/io/github/computerdaddyguy/jfiletreeprettyprinter/options/DefaultEmojiMapping.java#getPathEmoji", "jfiletreeprettyprinter-core/src/main/java/io/github/computerdaddyguy/jfiletreeprettyprinter/options/PrettyPrintOptions.java#withDefaultEmojis"]}
{"id": "C108", "title": "Symbolic links on the way to the printed path", "statement": "Paths may lead through symbolic links, absolute or relative ones, links to links, links with dots. The text printed for a path is that of what lies at the place of the disk to which it leads, so two paths of the same entry are printed with the same text (for options without user-written functions); links below are single lines and nothing behind them is printed, a link given as the printed path itself is a single line even if it leads to a directory, and for a path that is no entry nothing is printed. The printed entry is the one the operating system finds at the given path if there is neither . nor .. behind the first link on the way. FALSE otherwise: for a link l to a directory, l/.. prints the directory in which the link is (not the parent of the directory to which it leads), and l/. prints one line with the name of the link (not the directory).", "quantifier": "all disks with links in any place (also loops), all paths, all working directories, all options (all options without user-written functions for the comparison of two paths)", "why_tests_cant": "tests use few links, in the last position only; the ways through links are unboundedly many, and normalizing is right for every path without links", "anchors": ["jfiletreeprettyprinter-core/src/main/java/io/github/computerdaddyguy/jfiletreeprettyprinter/scanner/DefaultPathToTreeScanner.java#scan", "jfiletreeprettyprinter-core/src/main/java/io/github/computerdaddyguy/jfiletreeprettyprinter/scanner/DefaultPathToTreeScanner.java#handle", "jfiletreeprettyprinter-core/src/main/java/io/github/computerdaddyguy/jfiletreeprettyprinter/DefaultFileTreePrettyPrinter.java#prettyPrint", "jfiletreeprettyprinter-core/src/main/java/io/github/computerdaddyguy/jfiletreeprettyprinter/options/PathMatchers.java#isDirectory"]}
{"id": "C109", "title": "Making the files and directories which a text shows gives the same text", "statement": "If only names are shown, in the default order and without child limit (any filters, any depth up to the default one, any readable tree format, with or without compact directories), the returned text is a complete description of what it shows: reading it back gives a tree of names, and whoever makes, anywhere and on any machine, an empty file for every name and a directory for every name with a slash, gets the same text by printing that directory with the default options and the same tree format. With compact directories, a line with several names and slashes stands for directories inside each other, and the copy is printed with compact directories too. So a filtered text is also the unfiltered text of the filtered copy. Displayed names contain no line break, and displayed files are neither links nor special. Both the latter and the absence of child limits are needed: the files a? and a! (for a fifo a beside a!) and a file ... stand elsewhere than the lines from which they are made.", "quantifier": "all file systems, all filters, all depths up to 20, all readable tree formats, with or without compact directories, all places where the copy is made", "why_tests_cant": "a test compares one text with one copy; the order of the copy's names must agree with the order of the lines for all sets of names", "anchors": ["jfiletreeprettyprinter-core/src/main/java/io/github/computerdaddyguy/jfiletreeprettyprinter/DefaultFileTreePrettyPrinter.java#prettyPrint", "jfiletreeprettyprinter-core/src/main/java/io/github/computerdaddyguy/jfiletreeprettyprinter/renderer/DefaultTreeEntryRenderer.java#renderTree", "jfiletreeprettyprinter-core/src/main/java/io/github/computerdaddyguy/jfiletreeprettyprinter/renderer/file/DefaultFileFormatter.java#formatDirectoryBegin", "jfiletreeprettyprinter-core/src/main/java/io/github/computerdaddyguy/jfiletreeprettyprinter/renderer/file/DefaultFileFormatter.java#formatFile", "jfiletreeprettyprinter-core/src/main/java/io/github/computerdaddyguy/jfiletreeprettyprinter/scanner/DefaultPathToTreeScanner.java#scan"]}
{"id": "C110", "title": "Two texts are equal exactly if the same things are shown", "statement": "If only names are shown, in the default order and without child limit, two returned texts (of the same or different directories, machines, working directories and filters, but with the same depth limit, tree format and compact directories setting) are equal if and only if the printed directories have the same name, the same relative paths are displayed below both, and each of these is a directory in both cases or in none. So comparing two texts (as snapshot tests and documentation checks do) misses no change and reports no change where there is none. On disks with nothing but readable directories and regular files, with the default options: the texts are equal if and only if the names of the two directories are equal and, down to depth 20, the same relative paths exist and are of the same kind. Displayed names contain no line break, and displayed files are neither links nor special; without the latter it is false: a fifo a and a file a? give the same text.", "quantifier": "all pairs of file systems, all filters, depths, readable tree formats, all names", "why_tests_cant": "a test compares given pairs of trees; that no other pair gives equal texts, and that all ways of arriving at the same tree (order of the listing, place, filters) give the same text, is a statement about all pairs", "anchors": ["jfiletreeprettyprinter-core/src/main/java/io/github/computerdaddyguy/jfiletreeprettyprinter/DefaultFileTreePrettyPrinter.java#prettyPrint", "jfiletreeprettyprinter-core/src/main/java/io/github/computerdaddyguy/jfiletreeprettyprinter/renderer/DefaultTreeEntryRenderer.java#renderTree", "jfiletreeprettyprinter-core/src/main/java/io/github/computerdaddyguy/jfiletreeprettyprinter/renderer/DefaultFileFormatter.java#formatDirectoryBegin", "jfiletreeprettyprinter-core/src/main/java/io/github/computerdaddyguy/jfiletreeprettyprinter/scanner/DefaultPathToTreeScanner.java#scan", "jfiletreeprettyprinter-core/src/main/java/io/github/computerdaddyguy/jfiletreeprettyprinter/options/PathSorts.java#ALPHABETICAL"]}
{"id": "C111", "title": "All texts list their paths in one and the same order", "statement": "There is an order of all paths, given by the sort order alone, in which every returned text lists what it displays: a directory before everything below it, and of two paths that lie in (or are) different entries of one directory, the one whose entry is sorted first. The list of displayed paths is the only arrangement of the displayed paths in this order. So whatever changes between two printings (files created, deleted or moved, another printed directory, other filters, child limits, depths, tree formats, emojis, extensions), the paths displayed both times stand in the same order in both texts; a comparison of the two texts line by line never has to deal with transpositions. If no sort order is set, it is the order of the dictionary whose letters are the names, compared unit by unit (which is not the order of the path strings: a/x comes before a.txt).", "quantifier": "all pairs of file systems, all filters, child limits, depths; all comparators that obey the contract and distinguish entries of a directory", "why_tests_cant": "a test sees the order of a few given paths in one text; the property is about all pairs of texts", "anchors": ["jfiletreeprettyprinter-core/src/main/java/io/github/computerdaddyguy/jfiletreeprettyprinter/DefaultFileTreePrettyPrinter.java#prettyPrint", "jfiletreeprettyprinter-core/src/main/java/io/github/computerdaddyguy/jfiletreeprettyprinter/scanner/DefaultPathToTreeScanner.java#scan", "jfiletreeprettyprinter-core/src/main/java/io/github/computerdaddyguy/jfiletreeprettyprinter/renderer/DefaultTreeEntryRenderer.java#renderTree", "jfiletreeprettyprinter-core/src/main/java/io/github/computerdaddyguy/jfiletreeprettyprinter/options/PathSorts.java#ALPHABETICAL", "jfiletreeprettyprinter-core/src/main/java/io/github/computerdaddyguy/jfiletreeprettyprinter/options/PrettyPrintOptions.java#sort"]}
{"id": "C112", "title": "A new entry changes only its own lines of the text", "statement": "Let compact directories and the child limit be off (every other option arbitrary), and let one file or directory appear in a displayed directory. The lines before and after the block of entries of that directory stay letter by letter the same. In the block, the text of every other entry stays the same. If a displayed entry of the directory is sorted after the new one, then the new text is the old text with the lines of the new entry inserted at one place, and no other character changes. If the new entry is sorted behind all others, then besides the inserted lines only the connector and the continuation symbols of the entry in front of it change (from last entry to entry with a successor). If nothing was displayed in the directory, only the lines of the new entry are inserted. Read backwards, the same holds for an entry that disappears.", "quantifier": "all file systems, filters, lawful comparators that distinguish entries, depths, tree formats, emojis, extensions", "why_tests_cant": "a test compares two given texts; the property is about all pairs of file systems that differ in one entry, and about everything that may stand around the entry", "anchors": ["jfiletreeprettyprinter-core/src/main/java/io/github/computerdaddyguy/jfiletreeprettyprinter/DefaultFileTreePrettyPrinter.java#prettyPrint", "jfiletreeprettyprinter-core/src/main/java/io/github/computerdaddyguy/jfiletreeprettyprinter/scanner/DefaultPathToTreeScanner.java#scan", "jfiletreeprettyprinter-core/src/main/java/io/github/computerdaddyguy/jfiletreeprettyprinter/renderer/DefaultTreeEntryRenderer.java#renderTree", "jfiletreeprettyprinter-core/src/main/java/io/github/computerdaddyguy/jfiletreeprettyprinter/renderer/Depth.java#append"]}
{"id": "C113", "title": "The text can be encoded whenever the names can", "statement": "The returned text is put together from whole strings: no name, emoji, extension or symbol is ever cut or reordered inside. Hence every property of strings that concatenation keeps carries over from these strings to the text. In particular: if the symbols, emojis and extensions are well-formed Unicode (no surrogate without partner), the text is well-formed (so that it can be written in UTF-8, where Files.writeString throws otherwise) exactly if all displayed names are. Both built-in tree formats and all default emojis are well-formed.", "quantifier": "all file systems, options, names, emojis and extensions", "why_tests_cant": "a test checks single texts; most emojis are surrogate pairs, and a cut in one of them would only show for particular names", "anchors": ["jfiletreeprettyprinter-core/src/main/java/io/github/computerdaddyguy/jfiletreeprettyprinter/DefaultFileTreePrettyPrinter.java#prettyPrint", "jfiletreeprettyprinter-core/src/main/java/io/github/computerdaddyguy/jfiletreeprettyprinter/renderer/DefaultTreeEntryRenderer.java#renderTree", "jfiletreeprettyprinter-core/src/main/java/io/github/computerdaddyguy/jfiletreeprettyprinter/renderer/EmojiFileFormatter.java#getEmojiPrefix", "jfiletreeprettyprinter-core/src/main/java/io/github/computerdaddyguy/jfiletreeprettyprinter/options/DefaultEmojiMappingBuilder.java#newDefaultInstance"]}
{"id": "C114", "title": "Characters beyond U+FFFF in the brackets of globs", "statement": "In a bracket expression of a glob any Unicode character may be listed and stands for itself as one character: [😀😃] accepts the names that consist of one of the two. Of ranges the documentation says the same, but for them it is FALSE: the range from a to b (a not after b) is accepted exactly if a is at most U+FFFF and, should b be beyond U+FFFF, a is below U+D800. An accepted range contains exactly the characters from a to b (but no slash). All other ranges, such as [😀-😃], are rejected with an IllegalArgumentException when the matcher is created, wherever the range stands in the glob.", "quantifier": "all characters that need no escape in brackets, all correct beginnings of a glob, all continuations", "why_tests_cant": "the characters are more than a million, their pairs a trillion; whether one is rejected depends on how its units compare with those of another", "anchors": ["jfiletreeprettyprinter-core/src/main/java/io/github/computerdaddyguy/jfiletreeprettyprinter/options/PathMatchers.java#hasNameMatchingGlob", "jfiletreeprettyprinter-core/src/main/java/io/github/computerdaddyguy/jfiletreeprettyprinter/options/PathMatchers.java#hasAbsolutePathMatchingGlob", "jfiletreeprettyprinter-core/src/main/java/io/github/computerdaddyguy/jfiletreeprettyprinter/options/PathMatchers.java#hasRelativePathMatchingGlob"]}
{"id": "C115", "title": "The globs in the documentation of the path matchers", "statement": "The examples in the documentation of hasAbsolutePathMatchingGlob and hasRelativePathMatchingGlob use the glob **\\*.java (with a backslash) and say that it accepts /home/user/project/Main.java and, relative to /home/user/project, src/Main.java. It is FALSE: the backslash makes the star a character, so the glob accepts exactly the paths whose last name ends with *.java, star included (without line breaks), and both answers are false; /tmp/file.java is answered with false as well, not with the announced exception. With a slash (**/*.java) the absolute form accepts exactly the paths whose name ends with .java, as was meant. The other glob mentioned for the absolute form, *.log, accepts nothing at all: no pattern for names without slash and ** does, except * itself, which accepts everything.", "quantifier": "all paths, working directories and references; any text for .java; any pattern for names", "why_tests_cant": "the tests do not use these globs; the claim is about all paths", "anchors": ["jfiletreeprettyprinter-core/src/main/java/io/github/computerdaddyguy/jfiletreeprettyprinter/options/PathMatchers.java#hasAbsolutePathMatchingGlob", "jfiletreeprettyprinter-core/src/main/java/io/github/computerdaddyguy/jfiletreeprettyprinter/options/PathMatchers.java#hasRelativePathMatchingGlob"]}
{"id": "C116", "title": "Moving a directory does not change its text, whatever is chosen with the library", "statement": "A directory is at two places under the same name (possibly on different machines of the same platform), and the printer is configured for both by the same sequence of calls: filters, sorts, child limits, emojis and line extensions made with the builders and with the conditions of PathMatchers (logical combinations, conditions on names, kinds, children, descendants, and, for entries, on the parent and on siblings; conditions on relative paths if they are relative to the printed directory). Then the calls succeed for both places or for neither, all texts printed at the two places are the same, and if everything can be read, a text is printed at both places or at neither. The sorts of PathSorts are among the allowed ones (the one by size if the sizes are the same). Own functions have to answer the same at corresponding paths; conditions on absolute paths and on ancestors see the place and are excluded.", "quantifier": "all pairs of places, all directories, all sequences of calls and conditions of the given kinds", "why_tests_cant": "a test prints a directory at one place with one configuration; the claim is about all pairs of places and all configurations", "anchors": ["jfiletreeprettyprinter-core/src/main/java/io/github/computerdaddyguy/jfiletreeprettyprinter/FileTreePrettyPrinter.java#prettyPrint", "jfiletreeprettyprinter-core/src/main/java/io/github/computerdaddyguy/jfiletreeprettyprinter/options/PathMatchers.java", "jfiletreeprettyprinter-core/src/main/java/io/github/computerdaddyguy/jfiletreeprettyprinter/options/PathSorts.java", "jfiletreeprettyprinter-core/src/main/java/io/github/computerdaddyguy/jfiletreeprettyprinter/options/ChildLimitBuilder.java", "jfiletreeprettyprinter-core/src/main/java/io/github/computerdaddyguy/jfiletreeprettyprinter/options/LineExtensionBuilder.java", "jfiletreeprettyprinter-core/src/main/java/io/github/computerdaddyguy/jfiletreeprettyprinter/options/EmojiMappingBuilder.java", "jfiletreeprettyprinter-core/src/main/java/io/github/computerdaddyguy/jfiletreeprettyprinter/options/PrettyPrintOptions.java"]}
{"id": "C117", "title": "The examples in the documentation of the builders do what they promise", "statement": "Used for printing any directory, the code shown as \"Example usage\" in the documentation of the builders does the following (read as meant where it does not compile). (1) ChildLimitBuilder: a directory named bigDir shows its first 10 entries, one named emptyDir none, the others all, with a line ... exactly where entries are left out. ChildLimits: none in bin, at most 20 in src, all in the others. (2) PathSortBuilder: in every directory README.md comes first and target last; of the others, those with core in their name come first, names decide within these groups; but the rule looks at the whole path, so inside a directory with core in its own absolute path it makes no difference. (3) EmojiMappingBuilder: building succeeds; directories get 📂; files whose name ends with .zip 📦 (case matters), else files named Dockerfile ignoring case 🐳, else files with the last extension java ignoring case ☕, else 📄. (4) LineExtensionBuilder and LineExtensions: building succeeds; when the reference directory is printed, entries named README.md get the text, and src/main/java below it (nothing else) a forced line break: no directory follows it on its line. (5) FileTreePrettyPrinterBuilder: everything within three levels of src/main/java is displayed and nothing below; directories at the third level have one line ... below them; below the first line, no line ends with a directory whose only content is a directory.", "quantifier": "all directories, working directories and other options (for (1) with orders that are comparators), all file names", "why_tests_cant": "a test runs the examples in one directory; the claim is for all directories", "anchors": ["jfiletreeprettyprinter-core/src/main/java/io/github/computerdaddyguy/jfiletreeprettyprinter/options/ChildLimitBuilder.java", "jfiletreeprettyprinter-core/src/main/java/io/github/computerdaddyguy/jfiletreeprettyprinter/options/ChildLimits.java", "jfiletreeprettyprinter-core/src/main/java/io/github/computerdaddyguy/jfiletreeprettyprinter/options/PathSortBuilder.java", "jfiletreeprettyprinter-core/src/main/java/io/github/computerdaddyguy/jfiletreeprettyprinter/options/EmojiMappingBuilder.java", "jfiletreeprettyprinter-core/src/main/java/io/github/computerdaddyguy/jfiletreeprettyprinter/options/LineExtensionBuilder.java", "jfiletreeprettyprinter-core/src/main/java/io/github/computerdaddyguy/jfiletreeprettyprinter/options/LineExtensions.java", "jfiletreeprettyprinter-core/src/main/java/io/github/computerdaddyguy/jfiletreeprettyprinter/FileTreePrettyPrinterBuilder.java"]}
{"id": "C118", "title": "What the README says about running the command line program", "statement": "(1) README.md:386-402: started with a path of a directory base with the content of the example, wherever it is, however the path is written and in whatever order it is listed, without options files, the program prints the text shown and exits with 0. (2) README.md:443-455, lookup order: FALSE in its second place: the program looks in the working directory, not beside the executable. The order is that of the README exactly if the executable is in the working directory; otherwise what is beside the executable (unless it is one of the other places or is itself printed) never changes a run. Without -o no options files but those in the target, in the working directory and in the home directory matter. (3) The same document gives the same run (exit code, output, messages) whether it is given with -o or found at any of the places; no file at all is like the empty document. (4) README.md:459-482: the example options file conforms to the published schema and is accepted. With it, the program prints of a directory: the directory with 📂; its first three files, by name, with names ending in .java, each with ☕, with ` // Main entry point` behind FileTreePrettyPrinter.java; a line ... if there are more; nothing of the directories in it, since no name is described by `src/main/**`. If one of these three files cannot be read, the exit code is 1 and nothing is printed to the standard output.", "quantifier": "all machines, working directories, home directories, targets, contents of options files and directories; (2) with all arguments, also with -o (when only the given file matters) and in debug mode; (1), (3) and (4) not in debug mode", "why_tests_cant": "a test runs the program on one machine with one set of files", "anchors": ["README.md", "jfiletreeprettyprinter-cli/src/main/java/io/github/computerdaddyguy/jfiletreeprettyprinter/cli/PrettyPrintCommand.java", "jfiletreeprettyprinter-cli/src/main/java/io/github/computerdaddyguy/jfiletreeprettyprinter/cli/options/reader/ExternalOptionsReader.java", "jfiletreeprettyprinter-cli/src/main/java/io/github/computerdaddyguy/jfiletreeprettyprinter/cli/options/reader/FallbackExternalOptionsReader.java"]}
{"id": "C119", "title": "Another name changes one line", "statement": "If a file or directory, anywhere below the printed directory, gets another name and stays at its place between its neighbours, then the other directory is printed exactly if the first one was (no new failure), and the two texts are the same but for one line: there the new label (emoji, name, / or mark, extension) stands instead of the old one, behind the same symbols. Nothing of what is below a renamed directory changes. If it is cut off by a limit, or is deeper than the maximal depth, the text stays the same. With compact directories it is one line too: there the new name stands instead of the old one, between the same other names; emoji and extension of the line change only if the line ends with the renamed entry. This holds for all choices by name and kind (filters, order, limits, emojis, extensions).", "quantifier": "all file systems, trees, entries, new names, options with choices by name and kind, any depth", "why_tests_cant": "a test renames one file in one directory", "anchors": ["jfiletreeprettyprinter-core/src/main/java/io/github/computerdaddyguy/jfiletreeprettyprinter/FileTreePrettyPrinter.java", "jfiletreeprettyprinter-core/src/main/java/io/github/computerdaddyguy/jfiletreeprettyprinter/scanner/DefaultPathToTreeScanner.java", "jfiletreeprettyprinter-core/src/main/java/io/github/computerdaddyguy/jfiletreeprettyprinter/renderer/DefaultTreeEntryRenderer.java"]}
{"id": "C120", "title": "The lines of the drawing connect, and which texts can be returned at all", "statement": "Every returned text is a drawing without loose ends, also when files change during the call and whatever the callbacks do: the first line has no symbols; in each other line the last symbol, and no other one, leads to the label; a line that goes down from a symbol goes on in the next row in the same column; a line that comes from above comes from a symbol of the row above in the same column, or from the beginning of the label above. Conversely, each drawing with these four properties is the picture of a tree. With the default options, for regular files and readable directories, the texts that can be returned are exactly the pictures of these trees: names alone, names with a slash above increasing names, and nothing but ... below a directory at the depth 20. So a program that reads such texts need not expect anything else, and cannot expect less.", "quantifier": "all calls, options, tree formats and trees; all texts", "why_tests_cant": "a test looks at one picture; that nothing else can occur, and that everything of this kind does occur, is not a matter of examples", "anchors": ["jfiletreeprettyprinter-core/src/main/java/io/github/computerdaddyguy/jfiletreeprettyprinter/FileTreePrettyPrinter.java", "jfiletreeprettyprinter-core/src/main/java/io/github/computerdaddyguy/jfiletreeprettyprinter/renderer/DefaultTreeEntryRenderer.java", "jfiletreeprettyprinter-core/src/main/java/io/github/computerdaddyguy/jfiletreeprettyprinter/renderer/DefaultTreeFormatter.java", "jfiletreeprettyprinter-core/src/main/java/io/github/computerdaddyguy/jfiletreeprettyprinter/renderer/Depth.java", "jfiletreeprettyprinter-core/src/main/java/io/github/computerdaddyguy/jfiletreeprettyprinter/scanner/DefaultPathToTreeScanner.java"]}
{"id": "C121", "title": "The paths of all displayed entries can be read off the text", "statement": "If only names are shown, a program that gets nothing but the text finds the paths of all displayed files and directories, in the order of the lines: the first line has no symbols; in each other line the symbols up to the first branch symbol are counted; a line with d symbols is in the directory that the first d of the lines on the stack lead to (the line above, and the lines of the directories it is in); a label with slashes is a chain of directories. A line for what is not shown gives a path that ends with .... This holds with any filters, order, child limits, depth, readable tree format, and with or without compact directories. With the default options everything that is read off a text is there, and everything within 20 levels is read off. Displayed names contain no line break and displayed files are neither links nor special.", "quantifier": "all file systems, all filters, orders, child limits, depths, readable tree formats, with or without compact directories", "why_tests_cant": "a test reads one text; that no name and no nesting misleads the reader needs all texts", "anchors": ["jfiletreeprettyprinter-core/src/main/java/io/github/computerdaddyguy/jfiletreeprettyprinter/FileTreePrettyPrinter.java", "jfiletreeprettyprinter-core/src/main/java/io/github/computerdaddyguy/jfiletreeprettyprinter/renderer/DefaultTreeEntryRenderer.java", "jfiletreeprettyprinter-core/src/main/java/io/github/computerdaddyguy/jfiletreeprettyprinter/renderer/DefaultTreeFormatter.java", "jfiletreeprettyprinter-core/src/main/java/io/github/computerdaddyguy/jfiletreeprettyprinter/renderer/DefaultFileFormatter.java", "jfiletreeprettyprinter-core/src/main/java/io/github/computerdaddyguy/jfiletreeprettyprinter/scanner/DefaultPathToTreeScanner.java"]}
{"id": "C122", "title": "The call stack needed is bounded by the depth limit, not by the directory", "statement": "The scanner and the renderer call themselves. However deep and wide the directory is, and whatever the file system and the callbacks answer, at most 3 * maxDepth + 4 calls of their methods are nested, so on a stack with room for that many the printer returns what it returns on an unlimited stack; with the default depth these are 64 calls. The bound is exact for the scanner: n nested directories read down to depth d need 3 * min(n, d) + 2 nested calls, so with a very large maxDepth (as for reading without limit) a deep directory exhausts every given stack.", "quantifier": "all file systems that may change, all callbacks and options, all stack sizes", "why_tests_cant": "a test runs on one directory with one stack; it cannot tell how the need grows", "anchors": ["jfiletreeprettyprinter-core/src/main/java/io/github/computerdaddyguy/jfiletreeprettyprinter/scanner/DefaultPathToTreeScanner.java", "jfiletreeprettyprinter-core/src/main/java/io/github/computerdaddyguy/jfiletreeprettyprinter/renderer/DefaultTreeEntryRenderer.java", "jfiletreeprettyprinter-core/src/main/java/io/github/computerdaddyguy/jfiletreeprettyprinter/DefaultFileTreePrettyPrinter.java", "jfiletreeprettyprinter-core/src/main/java/io/github/computerdaddyguy/jfiletreeprettyprinter/options/PrettyPrintOptions.java"]}
{"id": "C123", "title": "A text with emojis says all that the text without them says, and tells which lines are markers", "statement": "If every displayed entry has an emoji that is one word (as all default emojis are), a program that gets nothing but the text can make the text that the same call returns without emojis: it removes all up to the first space from every label except those that are just '...'. The labels that are just '...' are then exactly the markers for what is left out, even if files are called '...'. So with the default emojis and no child limit a text without such a label is complete: there is one exactly if a displayed directory lies at the depth limit. Without emojis the text does not tell: a directory with the single file '...' and a directory whose content is left out give the same text. Displayed names and extensions contain no line break.", "quantifier": "all file systems, filters, orders, depths, readable tree formats, extension functions, with or without compact directories; all locales that keep lower-case ASCII", "why_tests_cant": "a test compares two texts; that removal never takes a part of a name, and that no name looks like a marker, needs all names", "anchors": ["jfiletreeprettyprinter-core/src/main/java/io/github/computerdaddyguy/jfiletreeprettyprinter/renderer/EmojiFileFormatter.java", "jfiletreeprettyprinter-core/src/main/java/io/github/computerdaddyguy/jfiletreeprettyprinter/renderer/DefaultFileFormatter.java", "jfiletreeprettyprinter-core/src/main/java/io/github/computerdaddyguy/jfiletreeprettyprinter/options/EmojiMapping.java", "jfiletreeprettyprinter-core/src/main/java/io/github/computerdaddyguy/jfiletreeprettyprinter/options/DefaultEmojiMapping.java", "jfiletreeprettyprinter-core/src/main/java/io/github/computerdaddyguy/jfiletreeprettyprinter/scanner/DefaultPathToTreeScanner.java"]}
{"id": "C124", "title": "The size of the text is a sum over the displayed entries, and compact directories never make it longer", "statement": "Without compact directories the number of characters of the returned text is one less than the sum of these numbers over all displayed entries and markers: one more than the width of the tree symbols for each level above it, its emoji and a space if it has one, its name, one for the slash of a directory or for the mark of a link or special file, its extension, and one for the line break; three and a line break for a marker. With compact directories the text has at most that many characters: turning them on never makes a text longer, nor gives it more lines (if no line breaks are in what is displayed), whatever the emojis and extensions. Without compact directories and without child limits, filters that let less through never make the text longer. With compact directories they can: a merged line displays the emoji of its last directory only, and without that directory a longer emoji can appear.", "quantifier": "all file systems, all options whose callbacks are functions of the path, all tree formats", "why_tests_cant": "a test compares the texts of some directories", "anchors": ["jfiletreeprettyprinter-core/src/main/java/io/github/computerdaddyguy/jfiletreeprettyprinter/renderer/DefaultTreeEntryRenderer.java", "jfiletreeprettyprinter-core/src/main/java/io/github/computerdaddyguy/jfiletreeprettyprinter/renderer/DefaultTreeFormatter.java", "jfiletreeprettyprinter-core/src/main/java/io/github/computerdaddyguy/jfiletreeprettyprinter/renderer/DefaultFileFormatter.java", "jfiletreeprettyprinter-core/src/main/java/io/github/computerdaddyguy/jfiletreeprettyprinter/renderer/EmojiFileFormatter.java", "jfiletreeprettyprinter-core/src/main/java/io/github/computerdaddyguy/jfiletreeprettyprinter/options/PrettyPrintOptions.java"]}
