{"id": "C01", "title": "Qualified target names survive a round trip", "statement": "Building a fully qualified target name 'build_file:target#toolset' from its three parts and parsing it again returns exactly the same build file, target and toolset (and no toolset when none was given), so two different targets never share a qualified name.", "quantifier": "every build file path, every target name without ':' , every toolset without ':' or '#', with the no-toolset case included when the target has no '#'", "why_tests_cant": "The name space is infinite and the parser splits from the right; only a proof covers build file paths that themselves contain ':' or '#'.", "anchors": ["gyp/pylib/gyp/common.py:QualifiedTarget", "gyp/pylib/gyp/common.py:ParseQualifiedTarget"]}
{"id": "C02", "title": "Target references resolve to one canonical name", "statement": "Resolving a dependency reference written in a build file yields: as file, the place the reference names as seen from the referring file's directory, or the referring file itself when none is named (relative references come out in one canonical spelling); as target, the named target; as toolset, the reference's own toolset when it has a non-empty one, else the inherited one.", "quantifier": "every reference string, every referring build file and every inherited toolset", "why_tests_cant": "Combinations of present/absent parts and path shapes are unbounded.", "anchors": ["gyp/pylib/gyp/common.py:ResolveTarget"]}
{"id": "C03", "title": "Relative paths point back to the same file", "statement": "The relative path computed from a directory to a path, when resolved against that directory, denotes exactly that path; it is empty only when both are the same; and it climbs only as far as the deepest common ancestor.", "quantifier": "every pair of normalised absolute paths of any depth", "why_tests_cant": "Depth and component names are unbounded; examples only show a few shapes.", "anchors": ["gyp/pylib/gyp/common.py:RelativePath", "gyp/pylib/gyp/common.py:InvertRelativePath", "gyp/pylib/gyp/common.py:UnrelativePath"]}
{"id": "C04", "title": "A quoted argument reaches the POSIX shell unchanged", "statement": "The text produced for one command-line argument is read by a POSIX shell as exactly one word equal to the original argument, apart from the documented exceptions of '$' expansion which the encoder deliberately leaves alive.", "quantifier": "every argument string without '$' (for '$' the partial form states that the only remaining active character is '$')", "why_tests_cant": "The set of strings is infinite and quoting bugs hide in rare combinations of quotes, backslashes and blanks.", "anchors": ["gyp/pylib/gyp/common.py:EncodePOSIXShellArgument"]}
{"id": "C05", "title": "A quoted argument list is the same argument vector", "statement": "The command line produced from a list of arguments is split by a POSIX shell into exactly that list: same number of words, same order, same contents, including empty arguments.", "quantifier": "every list of '$'-free arguments of any length", "why_tests_cant": "Unbounded lists of unbounded strings.", "anchors": ["gyp/pylib/gyp/common.py:EncodePOSIXShellList"]}
{"id": "C06", "title": "The insertion-ordered set behaves as a duplicate-free list", "statement": "After any sequence of add, discard, update, and pop operations the container enumerates exactly the elements that were added and not since removed, each once, oldest insertion first (a re-added element keeps its place unless it was removed in between); reverse enumeration is the exact mirror; membership and length agree with the enumeration.", "quantifier": "every finite history of operations over any element type with equality", "why_tests_cant": "It is a pointer structure; its invariant has to hold after every history, not after the tested ones.", "anchors": ["gyp/pylib/gyp/common.py:OrderedSet"]}
{"id": "C07", "title": "Topological sort is correct or reports a cycle", "statement": "Sorting the keys of a graph returns every reachable node exactly once with each node before all nodes it points at; a cycle error is raised exactly when a cycle is reachable from the given nodes.", "quantifier": "every finite directed graph", "why_tests_cant": "All graphs of all sizes; both directions of an if-and-only-if.", "anchors": ["gyp/pylib/gyp/common.py:TopologicallySorted"]}
{"id": "C08", "title": "Write-if-changed never corrupts the target at any crash point", "statement": "When a generated file is rewritten, at every instant (so also if the process dies there; power failure is out of scope) the file on disk holds either its complete old content or the complete new content; it is left untouched (not even replaced) when the content is equal; on normal completion no temporary file is left behind. On Windows the one exception is a window in which the old file is already removed.", "quantifier": "every old content (or absence), every new content, every crash point between two file-system operations", "why_tests_cant": "Crash points and content pairs are quantified universally; tests do not crash between system calls.", "anchors": ["gyp/pylib/gyp/common.py:WriteOnDiff"]}
{"id": "C09", "title": "Removing duplicates keeps first occurrences in order", "statement": "De-duplicating a sequence yields each distinct element exactly once, in order of first occurrence.", "quantifier": "every list over every type with equality", "why_tests_cant": "Unbounded lists.", "anchors": ["gyp/pylib/gyp/common.py:uniquer", "gyp/pylib/gyp/input.py:Unify", "gyp/pylib/gyp/input.py:RemoveDuplicateDependencies"]}
{"id": "C10", "title": "Dependency order: every target comes after everything it depends on", "statement": "The flat target list produced from the dependency graph contains each target at most once and every listed target appears after all of its dependencies.", "quantifier": "every finite dependency graph and every insertion order of targets", "why_tests_cant": "All graphs; generators rely on the order for correctness.", "anchors": ["gyp/pylib/gyp/input.py:DependencyGraphNode.FlattenToList", "gyp/pylib/gyp/input.py:BuildDependencyList"]}
{"id": "C11", "title": "Dependency cycles are always rejected and only cycles are rejected", "statement": "Loading succeeds in producing a flat list containing all targets exactly when the target dependency graph has no cycle; with a cycle the load fails with an error instead of generating a partial build. A dependency on an unknown target also fails.", "quantifier": "every finite dependency graph, including self-loops and cycles not reachable from any dependency-free target", "why_tests_cant": "If-and-only-if over all graphs.", "anchors": ["gyp/pylib/gyp/input.py:BuildDependencyList", "gyp/pylib/gyp/input.py:DependencyGraphNode.FlattenToList"]}
{"id": "C12", "title": "Reported cycles are real", "statement": "Every cycle printed in a circular-dependency error is a genuine closed walk of the dependency graph with no repeated intermediate node, and when a cycle is reachable from the node the search starts at, at least one is reported.", "quantifier": "every finite graph and every start node", "why_tests_cant": "All graphs.", "anchors": ["gyp/pylib/gyp/input.py:DependencyGraphNode.FindCycles"]}
{"id": "C13", "title": "'Settings for all dependents' reach exactly the transitive dependents", "statement": "The list of deep dependencies of a target consists of exactly the targets reachable through one or more dependency edges, each once, and each one is listed after its own dependencies.", "quantifier": "every acyclic dependency graph and every target in it", "why_tests_cant": "Reachability over unbounded graphs.", "anchors": ["gyp/pylib/gyp/input.py:DependencyGraphNode.DeepDependencies"]}
{"id": "C14", "title": "'Direct dependent settings' follow exports and nothing else", "statement": "The targets whose direct-dependent settings are applied to a target are exactly its direct dependencies plus whatever those (recursively) declare as re-exported, each once; without any re-export declaration the result is just the direct dependencies.", "quantifier": "every dependency graph and every assignment of export lists", "why_tests_cant": "Closure over unbounded graphs.", "anchors": ["gyp/pylib/gyp/input.py:DependencyGraphNode.DirectDependencies", "gyp/pylib/gyp/input.py:DependencyGraphNode._AddImportedDependencies", "gyp/pylib/gyp/input.py:DependencyGraphNode.DirectAndImportedDependencies"]}
{"id": "C15", "title": "Link lines contain exactly the libraries the linker needs", "statement": "The targets linked into an executable, shared library or loadable module are: all of its transitive static-library style dependencies reached without passing through another linked product, plus the linked products at that frontier; dependencies of 'none' targets are not followed unless the initial target or the 'none' target opted in (dependencies_traverse); each appears once and an executable or loadable module is never linked into anything else.", "quantifier": "every acyclic graph and every assignment of target types and traverse flags", "why_tests_cant": "Type/edge combinations are unbounded; the recursion carries shared mutable state.", "anchors": ["gyp/pylib/gyp/input.py:DependencyGraphNode._LinkDependenciesInternal", "gyp/pylib/gyp/input.py:DependencyGraphNode.DependenciesToLinkAgainst", "gyp/pylib/gyp/input.py:DependencyGraphNode.DependenciesForLinkSettings"]}
{"id": "C16", "title": "Wildcard dependencies expand to exactly the matching targets", "statement": "A dependency 'file.gyp:*' is replaced in place by every target of that file with a matching name and toolset that does not opt out of wildcards, in file order; other dependencies keep their position; a wildcard on the own build file is rejected. The later removal of duplicates leaves each dependency once, in order of first occurrence.", "quantifier": "every dependency list and every set of loaded build files", "why_tests_cant": "Combinations of wildcard patterns, toolsets and lists are unbounded.", "anchors": ["gyp/pylib/gyp/input.py:ExpandWildcardDependencies", "gyp/pylib/gyp/input.py:RemoveDuplicateDependencies"]}
{"id": "C17", "title": "Dependency references become fully qualified names of existing form", "statement": "After qualification every dependency entry is a full 'file:target#toolset' name; with several toolsets an entry without explicit toolset inherits the toolset of the target it appears in; 'export' entries that do not name a direct dependency are rejected.", "quantifier": "every target dictionary and toolset", "why_tests_cant": "Unbounded reference strings and lists.", "anchors": ["gyp/pylib/gyp/input.py:QualifyDependencies"]}
{"id": "C18", "title": "Self-dependency pruning removes exactly self references", "statement": "When a target asks for self-dependency pruning, its dependency lists afterwards contain exactly the original entries other than itself, in order; other targets' lists are untouched. Link dependencies of type-none targets on targets declared link-dependency are pruned the same way.", "quantifier": "every target table", "why_tests_cant": "Unbounded tables.", "anchors": ["gyp/pylib/gyp/input.py:Filter", "gyp/pylib/gyp/input.py:RemoveSelfDependencies", "gyp/pylib/gyp/input.py:RemoveLinkDependenciesFromNoneTargets"]}
{"id": "C19", "title": "Static libraries keep their original dependencies and only hard ones stay", "statement": "Dependency adjustment records the original dependency list of every static library unchanged, and leaves a static library with just the (transitive, non-static or explicitly hard) dependencies it must be built after; executables and shared libraries gain every library they link against, each once.", "quantifier": "every acyclic target graph with types and hard_dependency flags", "why_tests_cant": "Graph- and flag-dependent; all graphs.", "anchors": ["gyp/pylib/gyp/input.py:AdjustStaticLibraryDependencies"]}
{"id": "C20", "title": "Appending lists keeps order and does not repeat singletons", "statement": "Merging a list of settings at the end of another leaves the original list as a prefix and adds the new items in order; string items that do not start with '-' are added only when not already present, flag items (starting with '-') are always added.", "quantifier": "every pair of lists", "why_tests_cant": "Unbounded lists.", "anchors": ["gyp/pylib/gyp/input.py:MergeLists"]}
{"id": "C21", "title": "Prepending lists puts new items in front", "statement": "Merging a list at the front ('+') places the items of the new list, in order, before the remaining original items and leaves each singleton once.", "quantifier": "every pair of lists (the code violates this when the new list repeats an item: see the witness)", "why_tests_cant": "Unbounded lists; the violating shape (a repeated item in the new list) is not in the unit tests.", "anchors": ["gyp/pylib/gyp/input.py:MergeLists"]}
{"id": "C22", "title": "List merge policy suffixes mean what the documentation says", "statement": "When merging a dictionary into another: 'key' appends, 'key+' prepends, 'key=' replaces, 'key?' sets only if absent; scalars are replaced; sub-dictionaries are merged recursively; a list/scalar/dict type clash is an error; contradictory policies for one key are an error; keys not mentioned stay unchanged.", "quantifier": "every pair of nested dictionaries", "why_tests_cant": "Recursive structures of unbounded size and depth.", "anchors": ["gyp/pylib/gyp/input.py:MergeDicts"]}
{"id": "C23", "title": "Paths in merged settings keep pointing to the same file", "statement": "When settings move from one build file to another, a relative path item is rewritten so that, seen from the new build file's directory, it denotes the same file; absolute paths, flags, variable references and other listed exceptions are left unchanged, and nothing changes when both files share a directory.", "quantifier": "every item string and pair of build files", "why_tests_cant": "Unbounded strings and paths.", "anchors": ["gyp/pylib/gyp/input.py:MakePathRelative"]}
{"id": "C24", "title": "List filters: last matching rule wins and nothing is lost", "statement": "After applying exclusions ('list!') and pattern filters ('list/') every original item is either kept in the list or moved to the excluded list, order preserved in both; an item is excluded iff the last exact exclusion or pattern matching it says exclude.", "quantifier": "every list, every exclusion list, every sequence of include/exclude patterns over an arbitrary matching relation", "why_tests_cant": "Unbounded lists and rule sequences.", "anchors": ["gyp/pylib/gyp/input.py:ProcessListFiltersInDict"]}
{"id": "C25", "title": "Configuration inheritance: parents before children, cycles terminate", "statement": "A configuration is the merge of its ancestors' settings, parents first in listed order, then its own; resolution terminates also for cyclic inheritance, and abstract configurations do not survive.", "quantifier": "every configuration table, including cyclic and diamond inheritance", "why_tests_cant": "Unbounded inheritance graphs.", "anchors": ["gyp/pylib/gyp/input.py:MergeConfigWithInheritance", "gyp/pylib/gyp/input.py:SetUpConfigurations"]}
{"id": "C26", "title": "Duplicate keys in a build file are always rejected", "statement": "Strict loading of a build file fails if any dictionary at any depth repeats a key, fails on anything other than dictionaries, lists and strings, and otherwise yields exactly the written data.", "quantifier": "every syntax tree of any depth", "why_tests_cant": "Unbounded depth.", "anchors": ["gyp/pylib/gyp/input.py:CheckedEval", "gyp/pylib/gyp/input.py:CheckNode"]}
{"id": "C27", "title": "The list of included files is complete and duplicate free", "statement": "The files reported as inputs of a build file are exactly those reachable by includes, each once, the build file itself first.", "quantifier": "every (possibly cyclic) include relation", "why_tests_cant": "All graphs.", "anchors": ["gyp/pylib/gyp/input.py:GetIncludedBuildFiles"]}
{"id": "C28", "title": "Parallel loading loads every needed build file exactly once", "statement": "Whatever the order in which worker processes finish, when loading completes without error every build file reachable through dependencies has been scheduled and loaded exactly once and the loader terminates; after an error no further file is scheduled.", "quantifier": "every dependency relation between build files and every completion schedule", "why_tests_cant": "Schedules are not controllable in unit tests.", "anchors": ["gyp/pylib/gyp/input.py:ParallelState", "gyp/pylib/gyp/input.py:LoadTargetBuildFilesParallel"]}
{"id": "C29", "title": "Variable reference brackets are matched exactly", "statement": "The bracket finder returns the shortest prefix that closes the first opening bracket with correct nesting of (), [] and {}, and reports failure exactly when the input is ill-nested or never closed.", "quantifier": "every string", "why_tests_cant": "Unbounded nesting depth.", "anchors": ["gyp/pylib/gyp/input.py:FindEnclosingBracketGroup"]}
{"id": "C30", "title": "Only canonical integers become integers", "statement": "A string is converted to an integer exactly when it is the canonical decimal spelling of one, so converting back gives the identical string and settings like '007' or '-0' stay strings.", "quantifier": "every string (ASCII digits); non-ASCII digit strings are a documented deviation", "why_tests_cant": "Unbounded strings; the reverse direction is an iff.", "anchors": ["gyp/pylib/gyp/input.py:IsStrCanonicalInt", "gyp/pylib/gyp/input.py:TurnIntIntoStrInDict", "gyp/pylib/gyp/input.py:TurnIntIntoStrInList"]}
{"id": "C31", "title": "Conditions pick the first true branch", "statement": "A condition list merges the settings of the first true expression of each condition entry, or the trailing default if none is true, or nothing; malformed condition entries are always rejected; later expressions of an entry are not evaluated for effect on the result.", "quantifier": "every condition list with any number of branches and any truth assignment", "why_tests_cant": "Unbounded branches and assignments.", "anchors": ["gyp/pylib/gyp/input.py:EvalCondition", "gyp/pylib/gyp/input.py:EvalSingleCondition", "gyp/pylib/gyp/input.py:ProcessConditionsInDict"]}
{"id": "C32", "title": "Variable defaults never override real values", "statement": "A 'name%' default is used exactly when the variable has no value from an enclosing scope or its own section; a value in the own section wins over the enclosing one (and inside a variables section of a variables section the value next to the inner section wins over the inner default). Settings that are strings, integers or lists are available as automatic '_name' variables.", "quantifier": "every variables dictionary and every enclosing scope", "why_tests_cant": "Unbounded dictionaries.", "anchors": ["gyp/pylib/gyp/input.py:LoadVariablesFromVariablesDict", "gyp/pylib/gyp/input.py:LoadAutomaticVariablesFromDict"]}
{"id": "C33", "title": "Variable expansion is complete or fails", "statement": "Expanding a string with nested references to variables gives the text (or list) obtained by replacing every reference by the fully expanded value of its variable, and leaves no reference of the current phase in the result, except that a variable whose value is just a reference to itself is left as it is. An undefined variable is an error (in an exclusion list it stands for the empty list); strings without references are returned unchanged, canonical integers as integers; a list where a scalar is needed is an error.", "quantifier": "every input string and variable table", "why_tests_cant": "Unbounded strings and nested references.", "anchors": ["gyp/pylib/gyp/input.py:ExpandVariables"]}
{"id": "C34", "title": "No two targets of one load are silently merged", "statement": "A load fails if two targets have the same fully qualified name, and when two targets in the same directory with the same toolset would use the same output name; otherwise both are kept.", "quantifier": "every set of build files and targets", "why_tests_cant": "Unbounded sets.", "anchors": ["gyp/pylib/gyp/input.py:BuildTargetsDict", "gyp/pylib/gyp/input.py:VerifyNoCollidingTargets"]}
{"id": "C35", "title": "Pruning keeps exactly what the requested targets need", "statement": "When root targets are requested, the remaining targets are exactly those targets matching a request plus their transitive dependencies, in the original order; an unknown request is an error.", "quantifier": "every target graph and request list", "why_tests_cant": "All graphs.", "anchors": ["gyp/pylib/gyp/input.py:PruneUnwantedTargets", "gyp/pylib/gyp/common.py:DeepDependencyTargets"]}
{"id": "C36", "title": "XML output can be read back", "statement": "Text and attribute values written to XML are read back by an XML reader as the original value; no written value can close its element, attribute or introduce a new one.", "quantifier": "every string and every nested element specification", "why_tests_cant": "Unbounded strings and trees.", "anchors": ["gyp/pylib/gyp/easy_xml.py:_XmlEscape", "gyp/pylib/gyp/easy_xml.py:_ConstructContentList", "gyp/pylib/gyp/easy_xml.py:XmlToString"]}
{"id": "C37", "title": "Ninja strings and paths are read back by ninja unchanged", "statement": "An escaped string is read by ninja as the original string; an escaped path in a build statement is read as one path equal to the original, and several paths stay separate.", "quantifier": "every string without newline; for paths, every path without newline, without a bar or colon token problem ('|' is not escaped by the code) and without a '$' followed by a blank, which are the places where the code deviates", "why_tests_cant": "Unbounded strings.", "anchors": ["gyp/pylib/gyp/ninja_syntax.py:escape", "gyp/pylib/gyp/ninja_syntax.py:escape_path", "gyp/pylib/gyp/ninja_syntax.py:Writer.build"]}
{"id": "C38", "title": "Wrapping long ninja lines does not change their meaning", "statement": "A logical line written with line wrapping, after ninja joins continuation lines, is token for token the line that was passed in.", "quantifier": "every text, width and indentation, where no break point falls inside a run of blanks or after a run of dollars that the wrapping glues (the two places where the code deviates)", "why_tests_cant": "Unbounded text; depends on '$' runs before blanks.", "anchors": ["gyp/pylib/gyp/ninja_syntax.py:Writer._line", "gyp/pylib/gyp/ninja_syntax.py:Writer._count_dollars_before_index"]}
{"id": "C39", "title": "C string escaping is lossless", "statement": "A string escaped for a C string literal denotes the original string and never terminates the literal early.", "quantifier": "every string of octal-escapable and ordinary characters", "why_tests_cant": "Unbounded strings.", "anchors": ["gyp/pylib/gyp/__init__.py:EscapeForCString"]}
{"id": "C40", "title": "Make-level quoting of defines and arguments is lossless", "statement": "A preprocessor define written to a Makefile reaches the compiler unchanged after Make's '$' and comment processing and shell quoting.", "quantifier": "every string without newline", "why_tests_cant": "Composition of three escaping layers over unbounded strings.", "anchors": ["gyp/pylib/gyp/generator/make.py:EscapeShellArgument", "gyp/pylib/gyp/generator/make.py:EscapeMakeVariableExpansion", "gyp/pylib/gyp/generator/make.py:EscapeCppDefine"]}
{"id": "C41", "title": "Ninja command arguments reach the program unchanged", "statement": "An argument quoted for a ninja rule on POSIX is read by the shell as exactly one word equal to the argument.", "quantifier": "every argument string", "why_tests_cant": "Unbounded strings.", "anchors": ["gyp/pylib/gyp/generator/ninja.py:QuoteShellArgument"]}
{"id": "C42", "title": "Windows response-file quoting is lossless", "statement": "A quoted argument is parsed by the Windows argv rules as exactly one argument equal to the original (after path normalisation and batch '%%' reduction).", "quantifier": "every argument", "why_tests_cant": "Backslash runs before quotes are unbounded.", "anchors": ["gyp/pylib/gyp/msvs_emulation.py:QuoteForRspFile"]}
{"id": "C43", "title": "The saved Windows environment is restored exactly", "statement": "Serialising an environment block and reading it back in the build wrapper gives the same variables and values.", "quantifier": "every environment with non-empty '='-free, NUL-free names and NUL-free values", "why_tests_cant": "Unbounded environments.", "anchors": ["gyp/pylib/gyp/msvs_emulation.py:_FormatAsEnvironmentBlock", "gyp/pylib/gyp/win_tool.py:WinTool._GetEnv"]}
{"id": "C44", "title": "Version comparison is a total order consistent with equality", "statement": "Comparing versions is reflexive, antisymmetric, transitive and total; trailing zero release segments do not matter; dev < pre < final < post < local within one release.", "quantifier": "every pair/triple of versions", "why_tests_cant": "Order laws quantify over triples of an infinite set.", "anchors": ["gyp/pylib/packaging/version.py:_cmpkey", "gyp/pylib/packaging/version.py:_BaseVersion", "gyp/pylib/packaging/_structures.py:InfinityType", "gyp/pylib/packaging/_structures.py:NegativeInfinityType"]}
{"id": "C45", "title": "Printing and re-parsing a version is lossless", "statement": "A text in ASCII is read as a version exactly when PEP 440 allows it, in exactly one way; parsing the printed form of a version gives back an equal version, different versions print differently and normalisation is idempotent. (Not so for texts with the few non-ASCII letters that match ASCII letters without case.)", "quantifier": "every ASCII text and every valid version", "why_tests_cant": "Infinite set of versions.", "anchors": ["gyp/pylib/packaging/version.py:Version.__init__", "gyp/pylib/packaging/version.py:Version.__str__", "gyp/pylib/packaging/version.py:_parse_letter_version", "gyp/pylib/packaging/version.py:_parse_local_version"]}
{"id": "C46", "title": "The change analyzer reports exactly the affected targets", "statement": "The change analyzer reports a supplied test target iff it is, or transitively depends on, a target containing a changed file (its build file, a file that includes, or a listed file, read from the directory of the build file); 'all' is reported iff a target of the given build files on which nothing depends is affected. The compile targets are affected targets at or below supplied ones, contain every such executable, and cover every such target that does something. Supplied names that no target has are listed as invalid. The answer does not depend on the enumeration order of sets.", "quantifier": "every acyclic build, every set of changed files and supplied names, every enumeration order of the sets", "why_tests_cant": "Memoisation across histories and all graphs.", "anchors": ["gyp/pylib/gyp/generator/analyzer.py:_DoesTargetDependOnMatchingTargets", "gyp/pylib/gyp/generator/analyzer.py:_GetTargetsDependingOnMatchingTargets"]}
{"id": "C47", "title": "Sharding a target splits its sources without loss", "statement": "Splitting a target into N shards distributes each source to exactly one shard, keeps relative order in each shard, shard sizes differ by at most one, shard names are distinct, and each dependency on the target becomes dependencies on all shards in place.", "quantifier": "every source list, every N >= 1, every dependency list", "why_tests_cant": "Unbounded lists and N.", "anchors": ["gyp/pylib/gyp/MSVSUtil.py:ShardTargets", "gyp/pylib/gyp/MSVSUtil.py:_ShardName", "gyp/pylib/gyp/MSVSUtil.py:_SuffixName"]}
{"id": "C48", "title": "Environment variables are defined before use", "statement": "The exported environment list contains every variable once (computed settings win over additional ones), each after the variables its value refers to; a circular reference, and nothing else, is an error. References in the values are written in braces, whatever form they had. Expanding a text with the list replaces every reference in brackets to a variable by its fully expanded value.", "quantifier": "every environment table, every enumeration order of the sets, every text made of ordinary characters and references", "why_tests_cant": "All graphs.", "anchors": ["gyp/pylib/gyp/xcode_emulation.py:_TopologicallySortedEnvVarKeys", "gyp/pylib/gyp/xcode_emulation.py:GetSortedXcodeEnv", "gyp/pylib/gyp/xcode_emulation.py:_NormalizeEnvVarReferences", "gyp/pylib/gyp/xcode_emulation.py:ExpandEnvVars"]}
{"id": "C49", "title": "The command line is split into commands and their arguments without loss", "statement": "Each recognised command (or alias) on the command line becomes one queued command, in order, and receives exactly the non-command words between it and the next command; words before the first command are ignored, with no recognised command nothing is executed. Every npm_config_ variable of the environment becomes the option of the same name; it replaces an option given on the command line, except for the log level.", "quantifier": "every argument vector and environment", "why_tests_cant": "Unbounded argument vectors.", "anchors": ["lib/node-gyp.js:Gyp.parseArgv"]}
{"id": "C50", "title": "Commands run in order and the first failure stops the run", "statement": "Queued commands run one after another, commands enqueued by a running command run after the ones already queued, and the process exits with success exactly when all executed commands succeed; after the first failure nothing else runs.", "quantifier": "every queue, every success/failure outcome of each command, every set of follow-up commands", "why_tests_cant": "All outcome sequences.", "anchors": ["bin/node-gyp.js:run", "lib/rebuild.js:rebuild"]}
{"id": "C51", "title": "Install only keeps verified headers", "statement": "After an install finishes successfully every downloaded file had the published checksum, and either nothing had to be done or the version directory holds all headers of the archive, the marker and (on Windows) the library, other directories being untouched; if anything fails the partially installed version directory is removed and the command fails.", "quantifier": "every set of downloaded files, every checksum list, every failure point of download, extraction or write", "why_tests_cant": "Network and crash schedules cannot be enumerated.", "anchors": ["lib/install.js:install", "lib/install.js:go", "lib/install.js:downloadShasums", "lib/install.js:rollback"]}
{"id": "C52", "title": "An ensured install is skipped only when a complete one exists", "statement": "With --ensure the download is skipped only if the version directory exists and records the current install version; in particular an interrupted install is redone. (The code violates the interruption part: the marker is written before checksum verification.)", "quantifier": "every on-disk state, including those left by a crash at any step of an earlier install", "why_tests_cant": "Crash points.", "anchors": ["lib/install.js:install", "lib/install.js:go"]}
{"id": "C53", "title": "Permission problems retry in the temporary directory at most once", "statement": "If the cache directory is not writable the install is retried once in a temporary directory and then fails; it never loops, and other errors are never retried.", "quantifier": "every sequence of error outcomes", "why_tests_cant": "All sequences of failures.", "anchors": ["lib/install.js:eaccesFallback"]}
{"id": "C54", "title": "Release URLs and directories are determined by version, name and options", "statement": "The version used is the first argument if it is a version, else --target, else that of the running Node. The header tarball and the checksum list come from the directory v<version> of the distribution URL, the import libraries from their documented place below it (legacy layout before 1.0.0), and are listed under their path from there; the headers-only tarball is used exactly for the versions that publish it; versions 1 to 3 are named iojs. The running Node's own release information is used exactly when its version is asked for and no distribution URL is; an explicit dist-url always wins. Different versions are installed in different directories.", "quantifier": "every version, release name, dist-url and environment option", "why_tests_cant": "All versions and options.", "anchors": ["lib/process-release.js:processRelease", "lib/process-release.js:normalizePath", "lib/process-release.js:resolveLibUrl"]}
{"id": "C55", "title": "Python discovery uses the first acceptable interpreter in the documented order", "statement": "The selected interpreter is that of the first candidate in the documented order (configured, environment variable PYTHON, launcher, python3, python, usual places) that leads to a Python 3.6 or later; nothing is run after that. NODE_GYP_FORCE_PYTHON excludes all other candidates; a configured Python that is not usable is passed over. If no candidate works an error is reported.", "quantifier": "every outcome of probing the candidates", "why_tests_cant": "All combinations of probe outcomes.", "anchors": ["lib/find-python.js:PythonFinder.findPython"]}
{"id": "C56", "title": "Visual Studio discovery picks the newest usable installation", "statement": "The sources of installations are asked in their documented order, older Visual Studio versions only for Node versions that support them, and the first source that offers a usable installation decides. Of the installations a source reports, the selected one is of a supported year, complete (MSBuild, toolset, SDK) and matches the user's request; no usable installation in the report is newer, and it is the first of its year. The result fails exactly if no source offers anything.", "quantifier": "every list of reported installations in any order", "why_tests_cant": "All permutations and sizes.", "anchors": ["lib/find-visualstudio.js:VisualStudioFinder.findVisualStudio", "lib/find-visualstudio.js:VisualStudioFinder.processData", "lib/find-visualstudio.js:VisualStudioFinder.checkConfigVersion"]}
{"id": "C57", "title": "Archive extraction stays inside the target directory", "statement": "Updating the bundled gyp extracts a tarball member only if it stays within the destination directory. (The code violates this for sibling directories sharing the name prefix.)", "quantifier": "every list of member paths and every destination", "why_tests_cant": "All member names.", "anchors": ["update-gyp.py:is_within_directory", "update-gyp.py:safe_extract"]}
{"id": "C58", "title": "Option lists become a last-wins table and flags regenerate faithfully", "statement": "NAME=VALUE options become a table in which the last value for a name wins and integers are converted; a bare NAME means true. The flags recorded in the generated files for regeneration, when run in the depth directory under any environment, lead to the same settings: equal tables of variables and generator flags, the same directories and includes, equal texts (values of one-letter options must be non-empty and not begin with an equals sign). Without a depth option the depth is the innermost directory named src around the first build file that has one.", "quantifier": "every option list, environment and current directory", "why_tests_cant": "Unbounded lists.", "anchors": ["gyp/pylib/gyp/__init__.py:NameValueListToDict", "gyp/pylib/gyp/__init__.py:RegenerateFlags", "gyp/pylib/gyp/__init__.py:RegenerateAppendFlag", "gyp/pylib/gyp/__init__.py:gyp_main"]}
{"id": "C59", "title": "Copied settings share no mutable state", "statement": "The deep copy used for settings reproduces every finite value of the supported types exactly and refuses every other value; whatever the holder of the copy does with it afterwards is never visible through anything that existed before, and vice versa.", "quantifier": "every nested value and every later sequence of mutations", "why_tests_cant": "Aliasing bugs only show up in particular mutation histories.", "anchors": ["gyp/pylib/gyp/simple_copy.py:deepcopy"]}
{"id": "C60", "title": "Checksum list parsing accepts exactly the published entries", "statement": "The checksum of a file is taken from the last line naming it, among the lines before the first line that is not an entry; a file without an entry or with a different digest makes installation fail.", "quantifier": "every SHASUMS text and every set of local digests", "why_tests_cant": "Unbounded texts.", "anchors": ["lib/install.js:downloadShasums"]}
{"id": "C61", "title": "Circular dependencies between build files are found", "statement": "The check for circular build files passes exactly when every dependency lies in a known build file and no build file needs itself through other build files; otherwise it reports an error, and every cycle it names is a real cycle of build files. Dependencies inside one file never count.", "quantifier": "every table of targets, any number of files and any dependency shape", "why_tests_cant": "Graphs are unbounded; a test covers a handful of shapes.", "anchors": ["gyp/pylib/gyp/input.py:VerifyNoGYPFileCircularDependencies"]}
{"id": "C62", "title": "Recursive dependency lists are complete and order independent", "statement": "The recursive dependency list of a set of targets contains, once each, exactly the targets reachable from them through current or original dependencies, without the given targets themselves, whatever order the sets are iterated in; the computation ends even on cyclic tables. All targets of a build file are its own followed by that list.", "quantifier": "every table of targets (cyclic ones included), every list of roots, every iteration order of the sets", "why_tests_cant": "Python set order differs between runs; cyclic graphs and sizes are unbounded.", "anchors": ["gyp/pylib/gyp/common.py:DeepDependencyTargets", "gyp/pylib/gyp/common.py:AllTargets"]}
{"id": "C63", "title": "Make rules mean what was asked, blanks in file names included", "statement": "A rule written to a makefile is read back by make as exactly the requested outputs, inputs (ordinary or order-only), forced re-run marker and actions, with blanks in file names kept as part of the names; several outputs of one action all depend on one intermediate file that alone carries the inputs and the actions.", "quantifier": "every list of outputs, inputs and actions (names without the characters that have a meaning in rules other than blanks)", "why_tests_cant": "Unbounded lists and names; the interesting cases are combinations of blanks, several outputs and options.", "anchors": ["gyp/pylib/gyp/generator/make.py:WriteMakeRule", "gyp/pylib/gyp/generator/make.py:QuoteSpaces"]}
{"id": "C65", "title": "The settings that configure writes are read back unchanged", "statement": "The file with the settings that configure writes is read by gyp (as Python) and by build (as JSON) as exactly the computed settings, truth values as texts, for any nesting and any characters, provided no setting is null. The settings are those of the Node in use, except that compiler flags, definitions, include directories and libraries are emptied, the default configuration, architecture, header directory and Python are set as documented, and every option that is not node-gyp's own becomes a variable with dashes turned into underscores.", "quantifier": "every settings value, every option list and every base configuration", "why_tests_cant": "Unbounded nesting and arbitrary characters in option values; two readers with different grammars must agree with one writer.", "anchors": ["lib/create-config-gypi.js:getCurrentConfigGypi", "lib/create-config-gypi.js:createConfigGypi", "lib/build.js:loadConfigGypi"]}
{"id": "C66", "title": "build runs the tool that was configured, on the right thing, and reports its outcome", "statement": "A build outside Windows runs the make asked for (option, environment, platform default) in the directory build, with the build type asked for at build time, else at configure time, else that of Node, the number of jobs asked for, and exactly the goals given; Python on its PATH is the one configure found. On Windows it runs the configured MSBuild on the requested or first solution with that configuration, the platform of the configured architecture and the given targets. It succeeds exactly if the command ends with code zero and was not killed, and its temporary directory of links is gone in either case; without a configuration nothing is run.", "quantifier": "every option list, environment, settings file and outcome of the command", "why_tests_cant": "Combinations of options, environment variables, settings and platforms; the meaning of the resulting command line for another program.", "anchors": ["lib/build.js:build", "lib/create-config-gypi.js:createConfigGypi"]}
{"id": "C64", "title": "configure's settings win over anything the user passes to gyp", "statement": "Whatever arguments are passed on to gyp (if gyp accepts them and they contain no bare --), gyp accepts the whole command line, reads binding.gyp first, and works with the user's options plus those of configure: the depth, the output directory, the variables for the headers, node-gyp, module, library and engine, and the generator's output directory win over arguments and environment; the written settings, the module's config.gypi and common.gypi, node-gyp's own and the header's common.gypi are included in this order; all else is as the user asked. Arguments gyp refuses are still refused. The headers are those of --nodedir, else the ones installed with node if they state the wanted version, else they are installed. gyp is started exactly if headers, Visual Studio, exports file and z/OS library are found where needed, and the command succeeds exactly if gyp ends with code zero.", "quantifier": "every list of arguments, environment, platform and state of the file system", "why_tests_cant": "Arbitrary user arguments interact with abbreviations, attached values and repeated options of another program's argument parser.", "anchors": ["lib/configure.js:configure", "lib/util.js:findAccessibleSync", "gyp/pylib/gyp/__init__.py:gyp_main"]}
{"id": "C67", "title": "A build file is completed by the files it includes, whatever was read before", "statement": "A build file that loads is its own dictionary with the included files merged in: the additional files of the command line first, then those of its includes list in order, each looked up from the directory of the file that names it and completed in the same way, and the same for every nested dictionary; a text set by several files has the value of the last. The result does not depend on which included files were read before. The recorded list of included files names exactly the files that contributed, each once. Loading succeeds exactly if every contributing file is there, is a dictionary and can be merged.", "quantifier": "every set of build files (nested and shared includes, any sizes), every order of loading, every list of additional files", "why_tests_cant": "The cache of files already read and the in-place merging make the result depend on history in principle; include structures are unbounded.", "anchors": ["gyp/pylib/gyp/input.py:LoadOneBuildFile", "gyp/pylib/gyp/input.py:LoadBuildFileIncludesIntoDict", "gyp/pylib/gyp/input.py:GetIncludedBuildFiles"]}
{"id": "C68", "title": "Each target is built once per toolset and completed by the defaults of its file", "statement": "A target is replaced by one variant for each toolset it asks for (for target if it does not say or several toolsets are not supported), otherwise unchanged; a target that has its toolset stays, so that doing this again changes nothing, and nothing else in the file changes except targets inside conditions, which are treated alike. With target_defaults every target becomes the defaults with the target merged in: what the target says wins, its lists are appended, what it does not mention comes from the defaults. The DEPTH variable and the recorded included files are right relative to the directory of the file, and the build files loaded next are exactly those the targets depend on.", "quantifier": "every build file dictionary (any number and nesting of targets and conditions), every list of toolsets, every directory", "why_tests_cant": "In-place changes of lists during iteration, shared sub-values, and a second pass over the results of the first.", "anchors": ["gyp/pylib/gyp/input.py:ProcessToolsetsInDict", "gyp/pylib/gyp/input.py:LoadTargetBuildFile"]}
{"id": "C69", "title": "Settings for dependents reach the targets they are for, in order", "statement": "A target takes over the settings for all dependents of everything it depends on, then the direct dependent settings of its direct dependencies and of what these export, then the link settings of what is linked into it; of several offers for a text the last one wins, lists of texts are extended by exactly the offered texts behind the target's own, what nobody offers is unchanged, and paths are adjusted to the file of the target. Afterwards none of these settings are left in any target.", "quantifier": "every table of targets with an acceptable dependency graph whose settings for others do not themselves contain settings for others or structural keys", "why_tests_cant": "Settings are merged in place into the dictionaries that are read as sources of settings for other targets in the same round; graphs are unbounded.", "anchors": ["gyp/pylib/gyp/input.py:DoDependentSettings", "gyp/pylib/gyp/input.py:Load"]}
{"id": "C70", "title": "Targets are checked before anything is generated, and rules get exactly their sources", "statement": "A target gets to the generators if and only if its type is known, only a static library claims to be a standalone one, its rules have names and extensions of their own and no sources of their own, what it is run as has a command, and its actions have names, inputs and commands that begin with something. Every rule then applies to exactly the sources of the target (and of the further lists the generator asks for) with its extension, in order, whether the extension was given with a dot or without. Every number, at any depth, reaches the generators as its decimal text, and nothing else changes.", "quantifier": "every target dictionary, any number of rules, sources and actions, values of any depth", "why_tests_cant": "Arbitrary file names and nesting; acceptance must be exact in both directions.", "anchors": ["gyp/pylib/gyp/input.py:ValidateTargetType", "gyp/pylib/gyp/input.py:ValidateRulesInTarget", "gyp/pylib/gyp/input.py:ValidateRunAsInTarget", "gyp/pylib/gyp/input.py:ValidateActionsInTarget", "gyp/pylib/gyp/input.py:TurnIntIntoStrInDict"]}
{"id": "C71", "title": "Every source of a target is compiled, by the right compiler, to an object of its own", "statement": "In the makefile of a target the objects are those of the compilable sources (listed, and generated by its actions and rules), one for each in order; an object is in a directory of the target and its toolset and keeps the path of the source. Each is made by a pattern rule from exactly that source with the compiler for its extension, wherever the source is (source tree, generated files of the target, shared generated files), and no pattern rule uses another compiler. Two sources in the source tree that get the same object differ only in their extension and belong to targets of the same name and toolset.", "quantifier": "every target (any numbers of sources, actions, rules, copies and dependencies, names of any length) whose names contain no characters special to make other than references to the documented variables, on platforms other than macOS and Windows", "why_tests_cant": "The rules are text interpreted by another program: variables are expanded at different times, and pattern rules are matched against names; combinations of names are unbounded.", "anchors": ["gyp/pylib/gyp/generator/make.py:MakefileWriter.WriteSources", "gyp/pylib/gyp/generator/make.py:MakefileWriter.Write", "gyp/pylib/gyp/generator/make.py:WriteRootHeaderSuffixRules"]}
{"id": "C72", "title": "In the makefile of a target everything is made after what it needs, by its own command", "statement": "Before any source of a target is compiled, the products of its dependencies, the libraries among them and everything that its actions, rules and copies make are there; what these make is itself made after the products of the dependencies, and the product of the target after it. Every output of an action is made again when an input of the action is newer, by the command of that action; what a rule makes of a source from that source and the inputs of the rule, by the command for that source; a copied file from the original. The product is made from all objects, the object files among the sources and the libraries of the dependencies, by the command for the type of the target; a target without a product of its own is renewed after any dependency. The makefile can be written whenever the dependencies were written before, all actions have outputs and all rules make something of each of their sources.", "quantifier": "every target (any numbers of sources, actions, rules, copies and dependencies, names of any length) whose names contain no characters special to make other than references to the documented variables, on platforms other than macOS and Windows", "why_tests_cant": "A missing dependency shows only in parallel builds or on rebuilds; the graph is text that another program reads, with variables expanded as it goes.", "anchors": ["gyp/pylib/gyp/generator/make.py:MakefileWriter.WriteActions", "gyp/pylib/gyp/generator/make.py:MakefileWriter.WriteRules", "gyp/pylib/gyp/generator/make.py:MakefileWriter.WriteCopies", "gyp/pylib/gyp/generator/make.py:MakefileWriter.WriteSources", "gyp/pylib/gyp/generator/make.py:MakefileWriter.WriteTarget", "gyp/pylib/gyp/generator/make.py:MakefileWriter.ComputeDeps"]}
{"id": "C73", "title": "The makefiles of a whole build make every product, after the products it depends on", "statement": "When the makefiles of all targets of a build are written, in the order of dependencies, this succeeds; the name of every target is a goal that leads to its product, the default goal leads to the product of every target that is asked for by default, programs and libraries are put where they are looked up when run, and in the whole of the makefiles, read in any order, the product of a target is made after the products of everything it depends on, directly or not. Targets have makefiles of their own, and two targets have the same product only if they are programs of the same name or targets of one directory and toolset whose names are the same up to a leading lib.", "quantifier": "every build (any number of targets and dependencies, names of any length) whose names contain no characters special to make other than references to the documented variables, on platforms other than macOS and Windows", "why_tests_cant": "The rules of different targets meet only when make reads all makefiles; a missing or wrong name of a product in one of them shows only for particular combinations.", "anchors": ["gyp/pylib/gyp/generator/make.py:GenerateOutput", "gyp/pylib/gyp/generator/make.py:MakefileWriter.WriteTarget", "gyp/pylib/gyp/generator/make.py:MakefileWriter.ComputeOutput", "gyp/pylib/gyp/generator/make.py:MakefileWriter._InstallableTargetInstallPath"]}
{"id": "C75", "title": "Compilers and linkers get the arguments of the configuration that is built", "statement": "With the makefiles of a target, the command line that compiles a source names the compiler of the toolset, the object and the source, every definition of the configuration that is built as one argument exactly as given (whatever quotes, blanks, dollars or number signs it has), every include directory resolved from the directory of the build file, the flags of the configuration and of the language, and nothing of another configuration. The command line that links a program, shared library or module names the linker of the toolset, the product, the flags and library directories of the configuration, search paths for shared libraries if a dependency is one, exactly the objects of the compiled sources, the objects among the sources and the libraries of the dependencies, and the libraries of the target, each once, in the order of the platform.", "quantifier": "every target, number of configurations with any definitions, include directories, flags and libraries, both compilers, every kind of linked product, every platform but macOS, any values of the variables of the header", "why_tests_cant": "the arguments pass make's quoting, two levels of variables chosen by the configuration, target-specific variables and the quoting of the shell; a unit test compares the text of makefiles for sample flags", "anchors": ["gyp/pylib/gyp/generator/make.py:MakefileWriter.WriteSources", "gyp/pylib/gyp/generator/make.py:MakefileWriter.WriteTarget", "gyp/pylib/gyp/generator/make.py:MakefileWriter.WriteList", "gyp/pylib/gyp/generator/make.py:EscapeCppDefine", "gyp/pylib/gyp/generator/make.py:EscapeShellArgument", "gyp/pylib/gyp/generator/make.py:EscapeMakeVariableExpansion", "gyp/pylib/gyp/generator/make.py:LINK_COMMANDS_LINUX", "gyp/pylib/gyp/generator/make.py:LINK_COMMANDS_ANDROID", "gyp/pylib/gyp/generator/make.py:LINK_COMMANDS_AIX", "gyp/pylib/gyp/generator/make.py:SHARED_HEADER"]}
{"id": "C74", "title": "Actions and rules run with exactly the arguments they were given", "statement": "With the makefile of a target, the command of an action makes the directories of its outputs and runs the action in the directory of its build file, with exactly the arguments given, whatever quotes, blanks, semicolons or other characters special to the shell they have; references in the arguments stand for the target, its toolset, the build directories (absolute, as the directory is changed) and the other variables of make. For every source of a rule the same holds of the command of the rule with the name of the source filled in. Libraries that were built before are found by what is run.", "quantifier": "every target, number of actions, rules and sources, any arguments without number signs and line breaks, platforms other than macOS and Windows, any values of the variables of the header", "why_tests_cant": "the arguments pass through make's assignment and expansion of variables (some of them set for a single file only) and the shell; a unit test compares the text for sample commands", "anchors": ["gyp/pylib/gyp/generator/make.py:MakefileWriter.WriteActions", "gyp/pylib/gyp/generator/make.py:MakefileWriter.WriteRules", "gyp/pylib/gyp/generator/make.py:MakefileWriter.ExpandInputRoot", "gyp/pylib/gyp/common.py:EncodePOSIXShellArgument", "gyp/pylib/gyp/common.py:EncodePOSIXShellList"]}
{"id": "C76", "title": "A file is made again exactly if its command or something it is made from has changed", "statement": "Whenever make comes to a file of the build that is made by a recorded command, the command is run if and only if a prerequisite (other than one that only gives an order) is newer, or the command is not letter for letter the one that last made the file successfully, over any sequence of builds; otherwise nothing is run. When it is run, a message is printed, the directories of the file and of its record are made, the command is run once as it is, and it is recorded such that make reads exactly this command in the next build, whatever quotes, blanks, dollars or other characters special to the shell or make it has (a number sign excepted).", "quantifier": "every platform other than Windows, every command of one line, every output name without characters special to make, all lists of prerequisites, and every sequence of builds with any commands, changes and failures", "why_tests_cant": "The canned recipe is text that passes through Python's formatting, make's functions, the shell, a file and make again; a test sees only commands that do not interfere with any of these, and no test covers sequences of builds", "anchors": ["gyp/pylib/gyp/generator/make.py:SHARED_HEADER"]}
{"id": "C77", "title": "Messages are shown in order, once, and only when they are due", "statement": "Whatever happens to node-gyp's logger (messages of any level, pauses, resumptions, changes of level and of stream, in any order), exactly those messages are written that are not hidden by the level in force when they are due: at once, or when the logger is next resumed if it was paused. They are written in the order in which they came, each exactly once; a level that does not exist hides everything. Every line of a message has the word gyp, the level and the prefix before it and no whitespace around it; on a terminal the same text is written with colours.", "quantifier": "every sequence of events, every text and every stream", "why_tests_cant": "Unbounded interleavings of messages, pauses and changes of level; tests silence the logger altogether", "anchors": ["lib/log.js:Logger"]}
{"id": "C78", "title": "Preprocessor definitions reach the Windows compiler unchanged", "statement": "The list of definitions written to a Visual Studio project is read back as exactly the definitions given, one for one and in order (followed, for MSBuild, by the inherited ones): no semicolon, comma, quote, backslash, percent sign, dollar, at sign, question mark or asterisk in a definition separates it, refers to a variable or is expanded; on the compiler's command line each is one argument with the text of the definition.", "quantifier": "every list of definitions of any length and content", "why_tests_cant": "Several layers of escaping interact: environment variables, command line, list separators and MSBuild's special characters; tests cover a few sample texts", "anchors": ["gyp/pylib/gyp/generator/msvs.py:_EscapeCppDefineForMSBuild", "gyp/pylib/gyp/generator/msvs.py:_EscapeCppDefineForMSVS", "gyp/pylib/gyp/generator/msvs.py:_EscapeVCProjCommandLineArgListItem", "gyp/pylib/gyp/generator/msvs.py:_GetValueFormattedForMSBuild"]}
{"id": "C79", "title": "Settings of Visual Studio projects reach MSBuild with their meaning", "statement": "For every set of settings in the msvs_settings of a target, whatever their order: each setting that is known and has a valid value becomes the setting of MSBuild it stands for, with its value converted (macros renamed everywhere in the text at once, numbers of enumerations replaced by labels that stand for the same compiler or linker option), and MSBuild gets no other settings; each unknown tool, unknown setting and invalid value gives a warning and nothing else does; the converted settings pass their own validation; the run fails exactly when a list is given for a single value.", "quantifier": "all dictionaries of settings (tools, names, texts and lists of texts), all orders of their entries, all 264 declarations of settings", "why_tests_cant": "There are 264 declarations with their own conversion, the settings combine freely, and macros can occur anywhere and next to each other in a value; tests compare a few fixed dictionaries.", "anchors": ["gyp/pylib/gyp/MSVSSettings.py:ConvertToMSBuildSettings", "gyp/pylib/gyp/MSVSSettings.py:ValidateMSBuildSettings", "gyp/pylib/gyp/MSVSSettings.py:ConvertVCMacrosToMSBuild", "gyp/pylib/gyp/MSVSSettings.py:_Enumeration", "gyp/pylib/gyp/MSVSSettings.py:_Same", "gyp/pylib/gyp/MSVSSettings.py:_ConvertedToAdditionalOption"]}
{"id": "C80", "title": "Every source of a target is in its Visual Studio project, once and as what it is", "statement": "The items of the project of a target are exactly its files (sources, excluded sources, the build file, inputs of actions, outputs that are sources, files that are copied) other than those an action is attached to, each once if the paths differ; an item has the type its extension or a rule stands for, and is left out of the build in a configuration exactly if its file is excluded there (an excluded file that the precompiled header of the configuration needs is built). The source of a precompiled header makes it in its configuration and files of the other language do not use it. Compiled files whose paths without extension and leading .. differ have different objects, also without regard to case. In the filters file every file is in the folder named after its directory relative to the common directory, and all folders are declared. The run fails, apart from a corner with excluded files only, exactly if a file is excluded in some but not all configurations.", "quantifier": "all targets with any number of sources, actions, copies and configurations, any flags, any results of the rules; projects of Visual Studio 2010 and later; all paths in normal form", "why_tests_cant": "The tree of folders is built and pruned recursively from all paths together, and exclusions depend on actions, precompiled headers and configurations at the same time; a test looks at a few fixed trees.", "anchors": ["gyp/pylib/gyp/generator/msvs.py:_PrepareListOfSources", "gyp/pylib/gyp/generator/msvs.py:_AdjustSourcesAndConvertToFilterHierarchy", "gyp/pylib/gyp/generator/msvs.py:_ConvertSourcesToFilterHierarchy", "gyp/pylib/gyp/generator/msvs.py:_GetExcludedFilesFromBuild", "gyp/pylib/gyp/generator/msvs.py:_AddSources2", "gyp/pylib/gyp/generator/msvs.py:_MapFileToMsBuildSourceType", "gyp/pylib/gyp/generator/msvs.py:_AppendFiltersForMSBuild"]}
{"id": "C81", "title": "The root makefile reads the makefile of every target and is made again when a build file changes", "statement": "When all makefiles have been written, make reads through the root makefile the makefile of every target exactly once (except those whose path begins with a word of NO_LOAD), however output directory, depth and build files lie to each other, so that what holds for the rules of all targets holds for the build; targets that differ in directory, name or toolset have makefiles of their own. The root makefile is made again when one of the build files or a file included by them is newer, and by nothing else; the command goes to the top directory and runs the same program with the same options and build files, with whatever blanks, quotes or backslashes are in them, and the program reads them as given. The makefile of a build file makes exactly the needed targets of that build file in the directory of the root makefile.", "quantifier": "all runs (working directory, top directory, output directory, depth, suffix), all lists of targets and makefiles, all values of NO_LOAD, all options and build files", "why_tests_cant": "Paths are rewritten relative to three different directories, and the result is read by make, by the shell and by the option parser in turn; a test runs one layout.", "anchors": ["gyp/pylib/gyp/generator/make.py:GenerateOutput", "gyp/pylib/gyp/generator/make.py:WriteAutoRegenerationRule", "gyp/pylib/gyp/generator/make.py:MakefileWriter.WriteSubMake", "gyp/pylib/gyp/generator/make.py:SourceifyAndQuoteSpaces", "gyp/pylib/gyp/common.py:RelativePath", "gyp/pylib/gyp/common.py:EncodePOSIXShellList"]}
{"id": "C82", "title": "Every action and copy of a target is run by its Visual Studio project, in order, with its own arguments", "statement": "In the project of a target every action and every copied file belongs to exactly one CustomBuild item, that of its first input (the build file if it has none); an item lists all outputs of its steps and all their inputs except the file itself, runs their commands in order, and stops at the first that fails with its exit code. The program and the arguments of an action without quotes, percent signs and macros reach the program one for one: switches as written, other arguments as paths that mean from the project what they mean from the build file. A copy makes the directory and copies the file to its name there.", "quantifier": "all lists of actions, copies and steps of rules, any inputs and outputs; any words; any outcome of the commands; any path functions that agree with some meaning of paths", "why_tests_cant": "Steps are merged per input, then text is rewritten for MSBuild, split into lines by cmd and into words by the program; the outcome depends on which command fails. A test compares a few command lines as text.", "anchors": ["gyp/pylib/gyp/generator/msvs.py:_BuildCommandLineForRuleRaw", "gyp/pylib/gyp/generator/msvs.py:_AddActionStep", "gyp/pylib/gyp/generator/msvs.py:_AddActions", "gyp/pylib/gyp/generator/msvs.py:_GetCopies", "gyp/pylib/gyp/generator/msvs.py:_GenerateActionsForMSBuild", "gyp/pylib/gyp/generator/msvs.py:_AddMSBuildAction"]}
{"id": "C83", "title": "The settings Node.js was built with are read from its headers", "statement": "With --nodedir, --disturl or --dist-url, and without --force-process-config, configure starts from the settings in include/node/config.gypi of the headers: whatever dictionaries, lists, integers and texts in single quotes the file has, with comments and white space anywhere between them and long texts continued over several lines, it is read as the value it writes. In every other case, and if the file cannot be read or understood, configure starts from the settings of the running Node.js, and no file makes a difference.", "quantifier": "all files in the grammar that Node's configure writes (values nested to any depth, texts without quotes, backslashes and number signs), all combinations of options, all contents of the disk, every JSON parser that reads JSON texts rightly", "why_tests_cant": "Comments, continued texts and quotes are rewritten by three regular expressions over the whole text, so what one part means depends on what is next to it at any depth; tests read a handful of files.", "anchors": ["lib/create-config-gypi.js:parseConfigGypi", "lib/create-config-gypi.js:getBaseConfigGypi"]}
{"id": "C84", "title": "list, remove and clean touch exactly what they name", "statement": "list shows exactly the entries of the directory of the development files except current. remove with a version (or --target) deletes the directory of that version there with all that is in it, and nothing else on the disk; if there is none it deletes nothing and says so; other spellings of the version are the same, and the directory is the one install uses for that version of Node.js. After it, list shows the same entries in the same order without the removed one, and every listed entry can be removed by its name. clean deletes the directory build in the working directory and nothing else.", "quantifier": "all disks (files and directories at any depth), all versions and names of directories, all parsers of versions, all absolute directories of development files", "why_tests_cant": "That nothing else is deleted is a statement about the whole disk and about every name that can be given; tests look at one or two directories.", "anchors": ["lib/list.js:list", "lib/remove.js:remove", "lib/clean.js:clean", "lib/process-release.js:processRelease"]}
{"id": "C85", "title": "The directory of the running Node.js is found from where node-gyp and node lie", "statement": "If node-gyp belongs to the npm that comes with a Node.js (in its source tree, or installed with it, with or without lib as the platform has it), the directory of that Node.js is found; otherwise the directory is found from the program that runs, if that is installed in bin or built in Release or Debug of a source tree; in all other layouts no directory is found. On AIX and OS/400 the exports file is the first of four files that can be read in that directory.", "quantifier": "all directories of Node.js (any number of names), all places of node-gyp and of the program, both kinds of platform, any readable files", "why_tests_cant": "The directory is guessed from names at fixed distances in two paths; tests try one path of each kind, and cannot show that no other layout is mistaken for one of them.", "anchors": ["lib/find-node-directory.js:findNodeDirectory", "lib/configure.js:configure", "lib/util.js:findAccessibleSync"]}
{"id": "C86", "title": "The Visual Studio solution of a build file has every project it needs, with what to build", "statement": "For every build file a solution is written. Read as Visual Studio reads it, its projects are exactly the targets of the build file and all targets they need, directly or not, each once: with its name, a path that leads from the directory of the solution to the project file, its GUID (the one given, or one made from the path), and the GUIDs of the projects it depends on, which are all projects of the solution. It offers exactly the configurations of the targets, each once, and says for every project and every configuration what the project builds; that is a configuration of the project file if the names of the configurations have no underscore other than before the platform and msvs_target_platform is not used. Projects are shown in folders like the directories of their build files, without those all share and without a directory that has only the project of its name. A project file refers to the projects of its dependencies and to no others (libraries for the host are left out of projects for the target); each reference leads to the project file of the dependency and has its GUID.", "quantifier": "all sets of targets (any number of build files, directories of any depth, dependency graphs with cycles), all configurations, both toolsets, all editions, all orders in which Python's sets are gone through", "why_tests_cant": "The projects of a solution come from the transitive closure of a graph, the folders from a tree built, stripped and collapsed over all paths, the configurations from three functions that compute the same name in different ways; a test has one small tree and does not open the solution.", "anchors": ["gyp/pylib/gyp/generator/msvs.py:_CreateProjectObjects", "gyp/pylib/gyp/generator/msvs.py:_GatherSolutionFolders", "gyp/pylib/gyp/generator/msvs.py:GenerateOutput", "gyp/pylib/gyp/generator/msvs.py:_GetPlatformOverridesOfProject", "gyp/pylib/gyp/generator/msvs.py:_GetMSBuildProjectReferences", "gyp/pylib/gyp/MSVSNew.py:MSVSSolution.Write"]}
{"id": "C87", "title": "In a Visual Studio project every property has the value given for it in each configuration", "statement": "Read as MSBuild reads it, from first to last with the references replaced by what the properties are at that point, a property group of the project file gives every property in every configuration the value that was asked for, in which references to other properties of the group stand for what these end up with and a reference of a property to itself for what it was before; properties that were not asked for keep their value. The group is written if no properties refer to each other in a circle, and only then. For a target of the usual kind this holds of all it says: the output and intermediate directories, the name and the extension of the product and its path have in each configuration the documented values, the first group says what the target is (a program, a library), and with a Cygwin directory the search path gets two directories more.", "quantifier": "all configurations and settings (any number, referring to each other in any order), all orders in which Python's sets are gone through, all environments of properties", "why_tests_cant": "A property set alike in all configurations is written once without a condition and others several times with one, and all are sorted by their references over all configurations; whether the final values are right depends on the whole set of names, values and references.", "anchors": ["gyp/pylib/gyp/generator/msvs.py:_AddConditionalProperty", "gyp/pylib/gyp/generator/msvs.py:_GetMSBuildPropertyGroup", "gyp/pylib/gyp/generator/msvs.py:_GetMSBuildAttributes", "gyp/pylib/gyp/generator/msvs.py:_GetMSBuildConfigurationDetails", "gyp/pylib/gyp/generator/msvs.py:_GetMSBuildConfigurationGlobalProperties"]}
{"id": "C88", "title": "In a Visual Studio project every tool gets in each configuration the settings of the target", "statement": "In every configuration the compiler, the resource compiler, the interface compiler, the librarian and the linker get the settings the target asks for: the include directories and library directories as seen from the project, the libraries by file name, each once at the last place where it is named (an empty list if there are none, so that no default is inherited), the escaped definitions, the warnings that are off, the precompiled header and its forced inclusion, the module definition file, the commands before and after the build. Lists are added to the end of a list that is given for the tool, the product's file and extension apply only if none is given, and every other setting is as it was given. The project is refused if a definition cannot be escaped, there are several module definition files, or something is given where the target asks for something else, and only then. What is written in the project file for a tool is what it gets.", "quantifier": "all targets and configurations, all settings given for any tool (texts and lists), all libraries, directories, definitions and sources", "why_tests_cant": "Lists are shared between settings and changed while they are written, so what one tool gets may depend on which other tools were written before it; whether a call appends, sets, keeps or refuses depends on the values of all calls before it.", "anchors": ["gyp/pylib/gyp/generator/msvs.py:_FinalizeMSBuildSettings", "gyp/pylib/gyp/generator/msvs.py:_ToolSetOrAppend", "gyp/pylib/gyp/generator/msvs.py:_GetLibraries", "gyp/pylib/gyp/generator/msvs.py:_GetOutputFilePathAndTool", "gyp/pylib/gyp/generator/msvs.py:_GetModuleDefinition", "gyp/pylib/gyp/generator/msvs.py:_GetMSBuildToolSettingsSections", "gyp/pylib/gyp/generator/msvs.py:_GetValueFormattedForMSBuild"]}
{"id": "C89", "title": "The compilers, linker and archiver that make runs are those asked for, in the documented order", "statement": "Every tool of the makefiles (C and C++ compiler, linker, archiver, PL/I compiler, for target and host) is what make is given by the tool's own name on its command line or in its environment; else the global setting of that name, with its wrapper and as an absolute path; else what the environment held when the makefiles were generated, the name for the toolset before the general one; and else what the general name stands for when make runs, with the linker falling back to the C++ compiler. A setting of the compilers replaces what is built into make but not what make is given. Flags are those given by name, or the usual ones, with `_host` for the host. On z/OS the compilers that are not given go with the C compiler. An empty setting is refused, and so are targets of build files with different settings.", "quantifier": "all environments of gyp and of make, all command lines, all built-in values, all lists of global settings with repeated names and wrappers, all flavors", "why_tests_cant": "The choice is spread over what Python writes and what make does with conditional assignments that refer to variables defined later, with values from four sources for more than twenty names.", "anchors": ["gyp/pylib/gyp/generator/make.py:GenerateOutput", "gyp/pylib/gyp/generator/make.py:SHARED_HEADER", "gyp/pylib/gyp/common.py:GetEnvironFallback"]}
{"id": "C90", "title": "The compilation database has one right entry for every C and C++ source", "statement": "The compile_commands_json generator writes, for each configuration that some target has and for no other, one file; it holds, in order, exactly one entry for every C or C++ source of every target that has the configuration. The file of an entry is the absolute path of the source, and a shell reads its command as the compiler for the language, a -D for each definition, a -I with the absolute path of each include directory that is not made by the build, the flags of the configuration for that language, -c and the file.", "quantifier": "all lists of targets with any configurations, definitions, include directories, flags and sources (any characters), all working directories, output directories", "why_tests_cant": "the words a shell makes of a command depend on quoting of arbitrary texts, and paths on where the build file and the working directory are; tests try a few names", "anchors": ["gyp/pylib/gyp/generator/compile_commands_json.py:AddCommandsForTarget", "gyp/pylib/gyp/generator/compile_commands_json.py:GenerateOutput", "gyp/pylib/gyp/common.py:EncodePOSIXShellList"]}
{"id": "C91", "title": "The dumped graph of dependencies is exactly what the listed targets need", "statement": "The dump_dependency_json generator dumps each target that the listed targets need, directly or through others, exactly once and nothing else, with all its dependencies in order; it ends for all graphs, also those with circles, and it fails exactly when a needed target is unknown.", "quantifier": "all graphs of targets, with or without circles, and all lists of targets", "why_tests_cant": "that the search ends and is complete for graphs of any size and shape is an invariant over all steps of a loop", "anchors": ["gyp/pylib/gyp/generator/dump_dependency_json.py:GenerateOutput"]}
{"id": "C92", "title": "The version of Visual Studio is the one asked for or the first one found, and its compilers are ones that run and compile for the target", "statement": "With GYP_MSVS_OVERRIDE_PATH set the version is the one GYP_MSVS_VERSION names, at that path. Without it, the versions for what is asked (by the caller, else by GYP_MSVS_VERSION, else in the order of preference) are looked for at their places in the registry, and the one found first is selected, with its directory; what is asked for by year is that year or its Express edition; when nothing is found the version asked for is used without a path, or 2005, unless there must not be a fallback. The setup script run for a version exists, and sets up compilers that compile for the target architecture and run on the machine, as 64-bit programs on 64-bit machines for the full editions from 2013 on.", "quantifier": "all contents of the registry, all file systems, all environments, all requests", "why_tests_cant": "there are unboundedly many registries and installations, and tests run on one machine", "anchors": ["gyp/pylib/gyp/MSVSVersion.py:SelectVisualStudioVersion", "gyp/pylib/gyp/MSVSVersion.py:_DetectVisualStudioVersions", "gyp/pylib/gyp/MSVSVersion.py:_CreateVersion", "gyp/pylib/gyp/MSVSVersion.py:VisualStudioVersion.SetupScript"]}
{"id": "C93", "title": "On macOS the flags for the compilers are what xcode_settings ask for, and nothing else", "statement": "Every switch among xcode_settings gives its flag when and only when the setting has its value (or is left out, for those that are on by default); the level of optimisation, the version of macOS, the language and the library for C++ are given with the value of their settings; the SDK comes first and the architecture is the only active one. The user's own flags come last and in order, the flags for C standing in C++ in place of every reference to them; settings that are not known have no effect; the settings with conditions count for configurations for devices only. It is refused exactly when a format of debugging information is not known, or an SDK is needed and there is none.", "quantifier": "all settings, machines, directories of frameworks, platforms and configurations", "why_tests_cant": "there are more than thirty settings that can be combined in any way, with texts of any length; tests look at a few of them on a Mac", "anchors": ["gyp/pylib/gyp/xcode_emulation.py:XcodeSettings.GetCflags", "gyp/pylib/gyp/xcode_emulation.py:XcodeSettings.GetCflagsC", "gyp/pylib/gyp/xcode_emulation.py:XcodeSettings.GetCflagsCC", "gyp/pylib/gyp/xcode_emulation.py:XcodeSettings.GetCflagsObjC", "gyp/pylib/gyp/xcode_emulation.py:XcodeArchsDefault.ActiveArchs", "gyp/pylib/gyp/xcode_emulation.py:XcodeSettings._ConvertConditionalKeys"]}
{"id": "C94", "title": "On macOS the linker gets the flags, the name and the libraries that xcode_settings ask for", "statement": "The user's own linker flags come first and in order, and the files and directories they name are looked for from the directory of the build file. The linker is asked for the same architecture, SDK and oldest version of macOS as the compiler; its switches and versions follow their settings; the directories for libraries, programs that run and frameworks are given in order, and the directory of the products always. A shared library, and nothing else, is told the name it is installed under: what is asked for, or its file name in the directory asked for; names that are not the same in all configurations, or with other variables, are refused. Frameworks and libraries are linked by their names, those of the SDK by their place in it, in their order.", "quantifier": "all settings, targets, configurations, machines, flags, libraries and file systems", "why_tests_cant": "the texts of flags and names are unbounded, and patterns for them are tried one after the other; tests look at a few of them on a Mac", "anchors": ["gyp/pylib/gyp/xcode_emulation.py:XcodeSettings.GetLdflags", "gyp/pylib/gyp/xcode_emulation.py:XcodeSettings._MapLinkerFlagFilename", "gyp/pylib/gyp/xcode_emulation.py:XcodeSettings.GetInstallName", "gyp/pylib/gyp/xcode_emulation.py:XcodeSettings._StandardizePath", "gyp/pylib/gyp/xcode_emulation.py:XcodeSettings.GetPerTargetSetting", "gyp/pylib/gyp/xcode_emulation.py:XcodeSettings.AdjustLibraries"]}
{"id": "C95", "title": "Certificates and the proxy for downloads", "statement": "With --cafile, a download trusts exactly the certificates of that file: the pieces of it, in order, that go from a line that begins a certificate to the nearest line that ends one, whole and without overlap, whatever text stands between them.  Without --cafile nothing is said about certificates.  The proxy and the hosts without a proxy are those given.", "quantifier": "all texts of files of certificates, all options", "why_tests_cant": "a test has one file of certificates with one kind of text between them", "anchors": ["lib/download.js:download", "lib/download.js:readCAFile"]}
{"id": "C96", "title": "Values of the registry", "statement": "The value of a key of the registry is the text that reg.exe prints for its data, to the end of the line, for all keys, names, types and data; what is found always comes from a line with the name and a type; a failure or an error printed by reg.exe is no value; of several keys the first that has the value counts and failures of the others do not matter.", "quantifier": "all keys, names, types and data, all outputs of reg.exe, all lists of keys", "why_tests_cant": "a test has a few outputs of reg.exe", "anchors": ["lib/util.js:regGetValue", "lib/util.js:regSearchKeys"]}
{"id": "C97", "title": "The system a build is for", "statement": "The flavor of a build is the one asked for after the format (make-mac); otherwise it follows from the macros of the compiler that CC_target, CC, CXX_target or CXX name, in this order, with their flags: Emscripten, then WASI or WebAssembly; otherwise it is that of the system, and Linux for systems that are not known.  The variables OS, SHARED_LIB_SUFFIX, LIB_DIR and the others follow from the flavor; what the command line defines comes first, except for the names of the generator and of Visual Studio.  The tool that is copied next to a Makefile is that of the flavor.", "quantifier": "all names of systems, environments, outputs of compilers, flavors, definitions of the command line, generators make and msvs", "why_tests_cant": "tests run on few systems and with few compilers", "anchors": ["gyp/pylib/gyp/common.py:GetFlavor", "gyp/pylib/gyp/common.py:GetFlavorByPlatform", "gyp/pylib/gyp/common.py:GetCrossCompilerPredefines", "gyp/pylib/gyp/common.py:CopyTool", "gyp/pylib/gyp/__init__.py:Load", "gyp/pylib/gyp/__init__.py:FindBuildFiles", "gyp/pylib/gyp/generator/make.py:CalculateVariables", "gyp/pylib/gyp/generator/msvs.py:CalculateVariables"]}
{"id": "C98", "title": "Rules in Visual Studio projects run for their files with the right inputs, outputs and commands", "statement": "For every target with rules, a Visual Studio project gets one rule for each rule that has an action and is not external, in order, with its extension, message, inputs, outputs and command; references to the file of a rule are replaced by the parts of that file; the sources gain exactly the inputs and outputs of rules whose outputs are sources; the file of a rule is not excluded from the build; a source with the extension of a rule goes to the last rule with it; names of elements never clash between rules with different names; external rules become a makefile with one recipe for each rule and file, and one step attached to it; generation stops exactly when a command or an output is missing.", "quantifier": "every list of rules, every path and file name, every set of sources and excluded sources", "why_tests_cant": "Unit tests check single rules on single files; they cannot show that expansion works for all paths, that no source is lost or added, or exactly which rules stop generation.", "anchors": ["gyp/pylib/gyp/generator/msvs.py:_RuleExpandPath", "gyp/pylib/gyp/generator/msvs.py:_RuleInputsAndOutputs", "gyp/pylib/gyp/generator/msvs.py:_AdjustSourcesForRules", "gyp/pylib/gyp/generator/msvs.py:_GenerateRulesForMSBuild", "gyp/pylib/gyp/generator/msvs.py:MSBuildRule", "gyp/pylib/gyp/generator/msvs.py:_GenerateExternalRules"]}
{"id": "C99", "title": "Paths and names in ninja files", "statement": "A path in a ninja file, read from the directory of the build, is the file that the path in the build file is, read from the directory of the build file; a file that is named in the outputs of an action and in its command is the same file in both.  References to the directories of products and intermediate files and to the configuration are replaced where they stand and nothing else is.  Objects go below obj or obj.<toolset> with the name of the target in front; two objects of a target are one file exactly when the sources are in one directory and differ in the extension only; objects of targets with different names without a dot are different files, and so are objects for different toolsets as long as paths stay below the top directory.  Names of rules differ between targets and actions.  Products have the names that makefiles give them, in their places.", "quantifier": "all directories, paths, names of targets, toolsets, actions and products", "why_tests_cant": "a test has one tree of directories; clashes come from combinations of names and directories of different targets", "anchors": ["gyp/pylib/gyp/generator/ninja.py:NinjaWriter.GypPathToNinja", "gyp/pylib/gyp/generator/ninja.py:NinjaWriter.GypPathToUniqueOutput", "gyp/pylib/gyp/generator/ninja.py:NinjaWriter.ExpandSpecial", "gyp/pylib/gyp/generator/ninja.py:NinjaWriter.ComputeOutput", "gyp/pylib/gyp/generator/ninja.py:NinjaWriter.ComputeOutputFileName", "gyp/pylib/gyp/generator/ninja.py:NinjaWriter.WriteNewNinjaRule"]}
{"id": "C100", "title": "order of a build with ninja", "statement": "With the files written for ninja, a source of a target is compiled only when all that the actions, rules and copies of the target and of all targets it needs (directly or through others) say they make has been made; a target is linked only when its objects, these files and the files that stand for all targets it needs have been made; the file that stands for a target is up to date only when its link and all of these are; a target that stands for nothing has no link and neither it nor what it needs makes anything. `all` is made from exactly the files that stand for the targets asked for, and the name of every target can be asked for, from exactly the files of the targets of that name, with one statement for a name.", "quantifier": "all lists of targets in an order of dependencies, with any actions, rules, copies, sources and types, each rule with an output", "why_tests_cant": "the order is a property of the whole graph; a test sees one run of one graph, where a missing edge usually goes unnoticed", "anchors": ["gyp/pylib/gyp/generator/ninja.py:NinjaWriter.WriteSpec", "gyp/pylib/gyp/generator/ninja.py:NinjaWriter.WriteActionsRulesCopies", "gyp/pylib/gyp/generator/ninja.py:NinjaWriter.WriteCollapsedDependencies", "gyp/pylib/gyp/generator/ninja.py:NinjaWriter.WriteSourcesForArch", "gyp/pylib/gyp/generator/ninja.py:NinjaWriter.WriteTarget", "gyp/pylib/gyp/generator/ninja.py:Target.PreActionInput", "gyp/pylib/gyp/generator/ninja.py:Target.PreCompileInput", "gyp/pylib/gyp/generator/ninja.py:Target.FinalOutput", "gyp/pylib/gyp/generator/ninja.py:GenerateOutputForConfig"]}
{"id": "C102", "title": "actions, rules and copies in ninja files", "statement": "In files written for ninja, each action has a statement with its own command that makes its outputs and runs again when one of its inputs changes; each source of a rule has a statement that makes the outputs for this source from it, runs again when an input of the rule changes and binds what the command says about the source; each copied file has a statement that copies it under its own name to the destination; and all of these statements run only when the targets that the target needs, directly or through others, are built and their actions, rules and copies have run.", "quantifier": "all lists of targets in an order of dependencies, with any actions, rules, copies, sources and types", "why_tests_cant": "the statements for a rule depend on the number of inputs and sources and on the rules before it; a test has one rule", "anchors": ["gyp/pylib/gyp/generator/ninja.py:NinjaWriter.WriteActions", "gyp/pylib/gyp/generator/ninja.py:NinjaWriter.WriteRules", "gyp/pylib/gyp/generator/ninja.py:NinjaWriter.WriteCopies", "gyp/pylib/gyp/generator/ninja.py:NinjaWriter.WriteActionsRulesCopies", "gyp/pylib/gyp/generator/ninja.py:NinjaWriter.WriteCollapsedDependencies"]}
{"id": "C101", "title": "compiling and linking with ninja", "statement": "In files written for ninja, each source of a target (its own or made by an action or rule) whose name ends in that of C, C++ or assembler is compiled with the command for it to the object of that source, and nothing else is. A target is linked unless its type is none or it has no objects and no library among what it depends on. A static library is made from its objects alone, thin unless it has to stand alone; a program or shared library from its objects, its `.o` sources and the static libraries it depends on, each once and in order, with the command for its type; it is linked again when the interface of a shared library it depends on or anything else it depends on changes, and shared libraries are named to the linker sorted and each once. The linker for C++ is used exactly when the target or something it is built from has C++.", "quantifier": "all lists of targets in an order of dependencies, with any sources, actions, rules, types and dependencies", "why_tests_cant": "what is linked depends on all targets a target depends on, and whether there is C++ on all of them transitively; a test has a few targets", "anchors": ["gyp/pylib/gyp/generator/ninja.py:NinjaWriter.WriteSourcesForArch", "gyp/pylib/gyp/generator/ninja.py:NinjaWriter.WriteLinkForArch", "gyp/pylib/gyp/generator/ninja.py:NinjaWriter.WriteTarget", "gyp/pylib/gyp/generator/ninja.py:NinjaWriter.WriteSpec", "gyp/pylib/gyp/generator/ninja.py:Target.Linkable", "gyp/pylib/gyp/generator/ninja.py:Target.UsesToc"]}
{"id": "C103", "title": "SDK, tool set and order of a Visual Studio project", "statement": "The version of the Windows SDK of a configuration is the one it names itself if that begins with a digit (as the one node-gyp puts there does), else the greatest, in the order of text, of those installed at the first place of the registry that has any, among the places of the SDK it names or of those Visual Studio works with. A project names the one of the first configuration that has one; making it fails for want of an SDK just when Visual Studio needs one and no configuration has one. It is built with the tool set of its default configuration, else that of Visual Studio (drivers and Windows Phone have their own). Its parts are in the order MSBuild needs, it imports the files of C++ and of the assembler once each (those of ARM just when it is built for arm64), and it lists each configuration once with its platform.", "quantifier": "all machines (registries and directories), targets, configurations and versions of Visual Studio", "why_tests_cant": "the registry and the directories of a Windows machine are not available in tests, and each has one set of SDKs", "anchors": ["gyp/pylib/gyp/generator/msvs.py:_ConfigWindowsTargetPlatformVersion", "gyp/pylib/gyp/generator/msvs.py:_GetMSBuildGlobalProperties", "gyp/pylib/gyp/generator/msvs.py:_GetMsbuildToolsetOfProject", "gyp/pylib/gyp/generator/msvs.py:_GetMSBuildProjectConfigurations", "gyp/pylib/gyp/generator/msvs.py:_GetMSBuildLocalProperties", "gyp/pylib/gyp/generator/msvs.py:_GenerateMSBuildProject", "gyp/pylib/gyp/MSVSVersion.py:VisualStudioVersion.__init__"]}
{"id": "C104", "title": "Loading end to end: dependencies as written decide the order, and finished targets are clean", "statement": "When gyp loads a set of build files successfully, every dependency that a target writes down (a plain name, or one with a file and a toolset) precedes that target in the flat list handed to the generators; the only exceptions are a self-dependency the target asks to have pruned and a link dependency of a target of type none. Targets of a file that ask for each other in a circle make loading fail. The list holds every target exactly once - all targets if no root targets are given, otherwise the named ones and what they depend on, every given name being found - and no two share directory, name and toolset. Each listed target is in the result with a known type, has passed the checks on rules, actions and run_as, contains no number at any depth, and carries none of all_dependent_settings, direct_dependent_settings and link_settings.", "quantifier": "all sets of build files, all targets, dependency texts, toolsets, roots and command line switches, all generators (path sections, configuration keys, extra source keys), all successful runs of every pass", "why_tests_cant": "Each pass is tested alone at best; that the fourteen passes in the order of Load preserve what the earlier ones established, for every set of targets, is a statement about their composition on all inputs.", "anchors": ["gyp/pylib/gyp/input.py:Load", "gyp/pylib/gyp/input.py:BuildTargetsDict", "gyp/pylib/gyp/input.py:QualifyDependencies", "gyp/pylib/gyp/input.py:BuildDependencyList", "gyp/pylib/gyp/input.py:PruneUnwantedTargets", "gyp/pylib/gyp/input.py:TurnIntIntoStrInDict"]}
{"id": "C105", "title": "Texts and structure in an Xcode project file are read back", "statement": "A project file printed by gyp says, to a reader of old-style property lists, exactly what the objects hold: its own properties and, under objects, one dictionary for each object, found by the object's identifier, with its class and its properties and nothing else. Texts come back character by character whatever quoting and escaping they needed, comments are skipped as a whole whatever their text, and lists and dictionaries of any depth come back as they were (settings for a build with lists of one text as that text). Not so for carriage returns, for names that begin with // and for names followed by a newline.", "quantifier": "all values of any depth, all texts without carriage return except the two kinds named, all comments, all sets of objects with different identifiers, both printing styles", "why_tests_cant": "Escaping and nesting interact; a test has a handful of texts and one project.", "anchors": ["gyp/pylib/gyp/xcodeproj_file.py: XCObject._EncodeString, _EncodeTransform, _EncodeComment, _XCPrintableValue, _XCKVPrint, Print", "gyp/pylib/gyp/xcodeproj_file.py: XCProjectFile.Print, _PrintObjects"]}
{"id": "C106", "title": "what runs after linking on macOS", "statement": "After a target is linked on macOS, there is a change into the directory of its file, then `dsymutil` runs exactly if its settings ask for symbols in their own file, then `strip` exactly if they ask for a stripped product, with the flags of the style that is set or that goes with the type, then the target's own commands in their order, each with exactly the arguments listed; signing comes last. A command runs only if all before it succeeded; if one fails the output is removed and its code is the result. Each configuration gets the commands of its own settings.", "quantifier": "all settings, configurations and lists of commands, with any arguments", "why_tests_cant": "what reaches a program has passed through two quotations, make or ninja, a loop with eval and the shell; a test tries a few arguments and one configuration", "anchors": ["gyp/pylib/gyp/xcode_emulation.py:XcodeSettings.AddImplicitPostbuilds", "gyp/pylib/gyp/xcode_emulation.py:XcodeSettings._GetStripPostbuilds", "gyp/pylib/gyp/xcode_emulation.py:XcodeSettings._GetDebugInfoPostbuilds", "gyp/pylib/gyp/xcode_emulation.py:XcodeSettings._GetIOSPostbuilds", "gyp/pylib/gyp/xcode_emulation.py:GetSpecPostbuildCommands", "gyp/pylib/gyp/generator/make.py:MakefileWriter.WriteTarget", "gyp/pylib/gyp/generator/ninja.py:NinjaWriter.GetPostbuildCommand"]}
{"id": "C107", "title": "Values and actions in CMake files", "statement": "In the CMakeLists.txt that gyp writes, a variable stands for the value it was given, whatever quotes, backslashes and semicolons it has; a list stands for its values, and the defines of a target are the defines of the gyp file; a path leads to the file it names in the gyp file; and CMake is told of each action once, with its inputs, its outputs, exactly the words of its command, its directory and the directories to be made first. It does not hold of values that no list of CMake can hold (empty, ending in a backslash, with brackets that do not match), nor of a word of a command that is spelled like an option of add_custom_command; these are shown to come out otherwise.", "quantifier": "all names, values, lists, references to variables, settings of the variables of CMake, and lists of actions with distinct names", "why_tests_cant": "a test reads the text back for a few values and needs CMake; the claim is about every text and every list of actions, under the rules of CMake's quoting and lists", "anchors": ["gyp/pylib/gyp/generator/cmake.py: CMakeStringEscape, SetVariable, SetVariableList, SetTargetProperty, NormjoinPathForceCMakeSource, WriteActions", "gyp/pylib/gyp/common.py: EncodePOSIXShellList"]}
{"id": "C108", "title": "Sources, flags and properties of a CMake target", "statement": "What gyp writes for a target in CMakeLists.txt is read by CMake without error and makes exactly one target, with the command and keyword that go with its type, its name and each of its files (one that is made up if an executable has none). Files that are neither C, C++, assembler nor objects are marked as not compiled, and no others. A C, C++ or assembler source is compiled with the flags of the target and then with those of its language; the definitions, the include directories and the flags of the linker are those of the gyp file in order; and the target and the targets of its actions are made by default just when the gyp file asked for it. The flags of a language are kept by file: a file that two targets share is compiled, for both, with those of the later one.", "quantifier": "all targets of every type, with any sources, generated files, defines, flags, include directories and dependencies, under any setting of the variables of CMake", "why_tests_cant": "a test reads one target back and needs CMake; what is written depends on which of some twenty lists are empty", "anchors": ["gyp/pylib/gyp/generator/cmake.py: WriteTarget, SetVariableList, SetFilesProperty, SetTargetProperty, cmake_target_type_from_gyp_target_type"]}
{"id": "C109", "title": "Dependencies and libraries of a CMake target", "statement": "CMake is told of every dependency of a target: a program, a shared library or a module is linked with its static libraries, then its shared ones, then the libraries of the system, each once in the order first named (the static ones in a group where they may need one another); it is made after all its other dependencies, and a target that is not linked after all of them. A target is made after the targets of its actions, and these after every dependency of the target and nothing else.", "quantifier": "all targets, lists of dependencies of any types, libraries and actions", "why_tests_cant": "linking order and grouping depend on the whole list and on the flavour; a test has one list", "anchors": ["gyp/pylib/gyp/generator/cmake.py: WriteTarget"]}
{"id": "C110", "title": "Object files among the sources of a CMake target", "statement": "An object file listed among the sources of a target is handed to CMake as an object that is linked but not compiled, and other files are not.", "quantifier": "all targets with object files among their sources", "why_tests_cant": "the case where a target has objects and other uncompiled files, or objects alone, is not one a test of the generator has", "anchors": ["gyp/pylib/gyp/generator/cmake.py: WriteTarget"]}
{"id": "C111", "title": "Names of CMake targets", "statement": "Different targets have different names in CMakeLists.txt. A target is named after itself (and its toolset unless that is the usual one) where no other target would be named so, and after its file and itself otherwise; characters that CMake does not take are replaced.", "quantifier": "all lists of targets of any files, names and toolsets", "why_tests_cant": "whether names clash depends on all targets of a project together", "anchors": ["gyp/pylib/gyp/generator/cmake.py: CMakeNamer, CreateCMakeTargetBaseName, CreateCMakeTargetFullName, StringToCMakeTargetName"]}
{"id": "C112", "title": "The files of an Xcode project lead to where the paths in the gyp file do", "statement": "When a file is added to a group of an Xcode project by its path, the reference that is given leads to where the path does, starting from where the group leads; what was in the groups stays where it was and leads to where it led; adding the path again adds nothing and gives the same reference; and merging groups with their only group leaves the order of the files and where they lead unchanged.", "quantifier": "all groups of files with any children, all relative paths that name no variable (with detours, directories and localized files among them), and all trees of groups", "why_tests_cant": "What is found depends on everything that was added before, in any order; tests add a few files to an empty project.", "anchors": ["gyp/pylib/gyp/xcodeproj_file.py: PBXGroup.AddOrGetFileByPath, AddOrGetVariantGroupByNameAndPath, AppendChild, GetChildByPath, TakeOverOnlyChild", "gyp/pylib/gyp/xcodeproj_file.py: XCHierarchicalElement.__init__, PathFromSourceTreeAndPath, SourceTreeAndPathFromPath"]}
{"id": "C113", "title": "The parts of a macOS bundle are where the system looks for them", "statement": "For a target that is an application, a plug-in or a framework, the name of the bundle, its program, its Info.plist, its resources and its other folders are where the layout of bundles on macOS or iOS has them. Each resource goes to the folder of the resources, to the folder of its language if it comes from one, under its compiled name; two resources share a place only if language and name are the same; and on macOS no resource takes the place of the program, nor, in an application or plug-in, that of Info.plist.", "quantifier": "all targets with any product name, extension and framework version that are names of files, on macOS and iOS, all product directories and all resources", "why_tests_cant": "The layout is put together from many settings and two platforms; tests build a few bundles and only on a Mac.", "anchors": ["gyp/pylib/gyp/xcode_emulation.py: XcodeSettings.GetWrapperName, GetBundleContentsFolderPath, GetBundleResourceFolder, GetBundleExecutableFolderPath, GetBundlePlistPath, GetExecutablePath", "gyp/pylib/gyp/xcode_emulation.py: GetMacBundleResources"]}
{"id": "C114", "title": "The ids of an Xcode project are stable and distinct", "statement": "The id of a file in an Xcode project is made from the names and the parts of the paths of the groups it is in and from its own. A file that was in the project keeps its id when another file is added, even when groups that were merged into one are then apart. Different lists of names are hashed as different bytes, an id is 24 capital hexadecimal digits and loses nothing of the folded digest, and a project is written only if no two of its objects have the same id.", "quantifier": "all trees of groups that adding relative paths without variables makes, all paths that are added to them, all names of the root group, all names of any characters, and every hash function in the place of SHA-1", "why_tests_cant": "Which groups are merged depends on the whole tree; a file added elsewhere changes the shape above all others. Tests look at one project and never at two that differ by a file.", "anchors": ["gyp/pylib/gyp/xcodeproj_file.py: XCObject.ComputeIDs, EnsureNoIDCollisions, Descendants, HashablesForChild", "gyp/pylib/gyp/xcodeproj_file.py: XCHierarchicalElement.Hashables, PBXGroup.Hashables, PBXGroup.TakeOverOnlyChild", "gyp/pylib/gyp/generator/xcode.py: GenerateOutput"]}
{"id": "C115", "title": "CMake files copy what the gyp file says", "statement": "For a target with copies, CMake is told of one command that copies every listed file, and then every listed directory, to the entry of the same name in its destination, in the directory of the gyp file. The inputs and outputs that CMake watches are the places that the commands read and write, and the target of the copies needs all outputs. A target with nothing to copy has an empty target of that name.", "quantifier": "all lists of copies, with any number of files, directories and destinations, whose names stand for words of CMake, with variables in them; all directories of the gyp file and all sets of variables", "why_tests_cant": "Files and directories of many copies are collected in two lists that are read back through variables of CMake; a test sees one list with one file.", "anchors": ["gyp/pylib/gyp/generator/cmake.py: WriteCopies, SetVariableList, NormjoinPathForceCMakeSource"]}
{"id": "C116", "title": "CMake files run the rules of a target for each source", "statement": "For every rule of a target and every source it applies to, CMake is told of one command that makes the outputs from the inputs of the rule and the source, in the directory of the gyp file, with the words of the action in which the path, directory, name, root and extension of that source have been put. The target of the rule needs the outputs for all sources. Each output is kept in a variable of its own that still holds it at the end, so that outputs used as sources are the right files; the variables of the sources do not outlive their command.", "quantifier": "all lists of rules with distinct names, all numbers of sources, inputs and outputs, all texts that stand for words of CMake with references to variables of CMake or of the source; all orders in which the directories to be made come out", "why_tests_cant": "The text of the action is the same for all sources and is told apart only by variables that are set and unset around each command; that one command never sees the values of another, however many there are, is no matter of single runs.", "anchors": ["gyp/pylib/gyp/generator/cmake.py: WriteRules, NormjoinRulePathForceCMakeSource, SetVariable, UnsetVariable, SetVariableList"]}
{"id": "C117", "title": "Version specifiers take the versions of PEP 440", "statement": "A version specifier takes exactly the versions that PEP 440 says: <= and >= go by the order of public versions, < leaves out the pre-releases of its own version, > leaves out the post-releases and local versions of it, == and != go by equality up to zeros at the end and ignore a local part they do not name, ==V.* takes the whole series, ~=V takes what is not earlier than V in the series of V without its last number, === takes the one text. A set contains what all of its specifiers take. Pre-releases are taken if the caller, the set or a specifier says so. Filtering keeps the order and exactly the contained versions; where nothing is said about pre-releases and there is nothing else, they are kept.", "quantifier": "all versions, all ways to write the version of a specifier, all sets of specifiers in any order, all lists of versions and all answers to whether pre-releases are accepted", "why_tests_cant": "The operators work by printing, splitting and padding texts; that this agrees with the order for every epoch, length of release, stage and local part is not settled by tables of examples.", "anchors": ["gyp/pylib/packaging/specifiers.py: Specifier, SpecifierSet, _version_split, _version_join, _pad_version, _is_not_suffix", "gyp/pylib/packaging/utils.py: canonicalize_version", "gyp/pylib/packaging/version.py: Version.public, Version.base_version, Version.is_prerelease"]}
{"id": "C118", "title": "Xcode projects list files and groups in a fixed order", "statement": "The generated Xcode project shows in every group first the folders and then the files (localized files count as files), each kind alphabetically; nothing is lost or added, children with the same kind and name keep their order, and if no two children of a group share kind and name the listing does not depend on the order in which they were added. The top level lists Source, Intermediates, Projects, Frameworks, Products and Build in this order and other groups after them alphabetically, and the products are listed in the order of the targets that make them.", "quantifier": "all trees of groups and files of any depth and width, all lists of top-level groups, all lists of targets", "why_tests_cant": "Trees are unbounded and the claim about independence of the order of adding ranges over all permutations at every level.", "anchors": ["gyp/pylib/gyp/xcodeproj_file.py:XCHierarchicalElement.Compare", "gyp/pylib/gyp/xcodeproj_file.py:XCHierarchicalElement.CompareRootGroup", "gyp/pylib/gyp/xcodeproj_file.py:PBXGroup.SortGroup", "gyp/pylib/gyp/xcodeproj_file.py:PBXProject.SortGroups"]}
{"id": "C119", "title": "Header maps of frameworks lead to the right headers", "statement": "The header map written for a framework is a hash table a compiler can search: filling it always ends, the search for any name, with any case, stops and finds the path of the first file with this name, or nothing if there is none; the numbers in the table are the places of the name, the directory and the file name among the texts, and the start of the file tells the numbers of names and slots, where the texts begin and the longest path. The file is complete when the tool ends.", "quantifier": "all lists of names and paths of any length, all names looked up", "why_tests_cant": "Collisions chain in unboundedly many ways; a missing name must be reported missing for every possible name.", "anchors": ["gyp/pylib/gyp/mac_tool.py:WriteHmap", "gyp/pylib/gyp/mac_tool.py:NextGreaterPowerOf2"]}
{"id": "C120", "title": "Merged property lists, entitlements and profiles for signing", "statement": "Merging property lists gives at each path of keys the setting of the last list that says something about that path, so no other setting is lost; entitlements keep all their keys and paths with each $(VARIABLE) that is known replaced by its value and all others left, and get from the profile exactly the keys they lack; the profile chosen for a bundle fits it with the chosen team, no fitting profile has a longer pattern, a profile asked for by name is the only one tried, and if none fits the tool stops.", "quantifier": "all lists of property lists of any depth, all paths of keys, all texts made of plain parts and variables, all lists of profiles and teams, any meaning of patterns", "why_tests_cant": "Nesting depth, number of lists, and number of profiles are unbounded.", "anchors": ["gyp/pylib/gyp/mac_tool.py:MacTool._MergePlist", "gyp/pylib/gyp/mac_tool.py:MacTool._ExpandVariables", "gyp/pylib/gyp/mac_tool.py:MacTool._InstallEntitlements", "gyp/pylib/gyp/mac_tool.py:MacTool._FindProvisioningProfile"]}
{"id": "C121", "title": "Environment markers mean what their text says", "statement": "A marker is accepted exactly when it is a text of the grammar of comparisons, and, or and brackets; it holds in an environment exactly if its text says so, with brackets binding closest, then and, then or; if one comparison cannot be made the whole evaluation fails, wherever it stands; two ways to take a text apart never give different answers; and writing a marker as text and reading this text gives a marker that holds in the same environments.", "quantifier": "all markers of any length and depth of brackets, all environments (any outcome of each comparison)", "why_tests_cant": "Nesting and length are unbounded, and the claim about grouping ranges over all outcomes of all comparisons.", "anchors": ["gyp/pylib/packaging/_parser.py:_parse_marker", "gyp/pylib/packaging/_parser.py:_parse_marker_atom", "gyp/pylib/packaging/markers.py:_evaluate_markers", "gyp/pylib/packaging/markers.py:_format_marker"]}
{"id": "C122", "title": "Targets with large PDB files get a helper that writes to the same PDB file", "statement": "For every target marked msvs_large_pdb, gyp adds two targets in front of the list: a copy that puts the shim source in the intermediate directory, and a shim, a static library of exactly this copied file, on which the target depends after all its own dependencies. In every configuration the compiler of the shim and the linker of the target are told the same PDB file, which is the one given to the linker, or else the one given for the target, or else one named like the product in the product directory; all other settings of the target and all other targets stay as they were. gyp stops exactly if for some configuration of a marked target there is no such file. This holds if no target of the project has a name that an added one gets.", "quantifier": "all lists and dictionaries of targets, any number of marked targets and configurations, all names", "why_tests_cant": "The number of targets and configurations is unbounded, and names of added targets must not meet for any names.", "anchors": ["gyp/pylib/gyp/MSVSUtil.py:InsertLargePdbShims", "gyp/pylib/gyp/MSVSUtil.py:_GetPdbPath", "gyp/pylib/gyp/MSVSUtil.py:_SuffixName"]}
{"id": "C123", "title": "Canonical names and versions tell what is the same", "statement": "Two project names have the same canonical form exactly if they differ only in the case of letters and in which separators (- _ .) stand in a row; the form of a valid name consists of small letters, digits and single dashes between them, is its own canonical form and is recognised as canonical, and nothing else is recognised as canonical; with validation exactly the valid names are accepted. Two texts that are versions have the same canonical form exactly if the versions are equal (1.0 and 1), the form is read as an equal version and is its own canonical form; a text that is no version is left as it is.", "quantifier": "all names and versions in ASCII, of any length", "why_tests_cant": "Runs of separators and trailing zeros are unbounded, and the equivalence ranges over all pairs of names and all pairs of versions.", "anchors": ["gyp/pylib/packaging/utils.py:canonicalize_name", "gyp/pylib/packaging/utils.py:is_normalized_name", "gyp/pylib/packaging/utils.py:canonicalize_version"]}
{"id": "C124", "title": "File names of wheels and source archives are taken apart in one way", "statement": "The name of a wheel is accepted exactly if it is project-version[-build]-interpreters-abis-platforms.whl, where the project has no double underscore and the version is a version; what is read is the canonical name of the project, this version, the number and the rest of the build, and exactly the tags made of one interpreter, one abi and one platform each, in small letters. A name has only one such reading. The name of a source archive is accepted exactly if it is project-version.tar.gz or .zip with a version behind the last dash, and is read as the canonical name and this version.", "quantifier": "all file names in ASCII without line ends, of any length, any number of interpreters, abis and platforms", "why_tests_cant": "The number of parts between dots is unbounded, and that no name has two readings ranges over all ways to cut it.", "anchors": ["gyp/pylib/packaging/utils.py:parse_wheel_filename", "gyp/pylib/packaging/utils.py:parse_sdist_filename", "gyp/pylib/packaging/tags.py:parse_tag"]}
{"id": "C125", "title": "The tags of wheels for a system are exactly the fitting ones, best first", "statement": "For a Linux system with glibc 2 or later the manylinux tags are exactly those of its architectures with a glibc that is not newer than that of the system, not older than the oldest supported one (2.5 on x86, else 2.17), and not refused by the distributor, in the new spelling and, for 2.5, 2.12 and 2.17, also in the old one; they come by architecture, then newest glibc first, and each tag stands for one platform only. For musl they are all minor versions up to that of the system, newest first. For CPython the tags have an interpreter and an ABI that fit: an ABI of its own, the stable ABI from 3.2 on, no ABI, and then the stable ABI of earlier versions down to 3.2, in this order. Tags without an ABI are those of the version of the language, its major version and the earlier minor versions, first for the platforms, then for any.", "quantifier": "all glibc and musl versions, all lists of architectures, ABIs and platforms, all versions of Python, any policy of the distributor", "why_tests_cant": "Versions are unbounded numbers, the distributor's policy is an arbitrary function, and completeness ranges over all tags.", "anchors": ["gyp/pylib/packaging/_manylinux.py:platform_tags", "gyp/pylib/packaging/_manylinux.py:_is_compatible", "gyp/pylib/packaging/_manylinux.py:_have_compatible_abi", "gyp/pylib/packaging/_musllinux.py:platform_tags", "gyp/pylib/packaging/tags.py:cpython_tags", "gyp/pylib/packaging/tags.py:compatible_tags"]}
{"id": "C126", "title": "The platform tags of macOS are exactly those of releases and formats it can run, latest first", "statement": "For macOS 10.x the tags are exactly those of the releases up to it with a format that has code for the processor and a release that runs on the processor; from macOS 11 on they are those of the major releases up to it and, of 10.4 to 10.16, those that are usable on x86_64 and universal2 on other processors. Tags of later releases come first, and for one release the format of the processor itself comes first. A tag stands for one release and format only. What fits a system fits later systems on the same processor (on x86_64 also from 10.x to 11).", "quantifier": "all versions of macOS and all processors", "why_tests_cant": "Versions are unbounded numbers, and completeness and the claim about later systems range over all tags and pairs of versions.", "anchors": ["gyp/pylib/packaging/tags.py:mac_platforms", "gyp/pylib/packaging/tags.py:_mac_binary_formats"]}
{"id": "C127", "title": "The header of an ELF file is read from the right places", "statement": "A file is accepted exactly if it starts with the ELF mark, has class 32 or 64 bits and little or big byte order, and is long enough for its header; the machine, the flags and the place, entry size and number of program headers are the numbers that stand, in the byte order of the file, at the places the ELF format gives for the class. The interpreter is the text that the first program header of type 3 that lies in the file points to, without zeros around it, and there is none exactly if there is no such header.", "quantifier": "all files (sequences of bytes of any length), all numbers of program headers", "why_tests_cant": "Files and tables are unbounded, both widths and byte orders combine with every length at which a file may end.", "anchors": ["gyp/pylib/packaging/_elffile.py:ELFFile.__init__", "gyp/pylib/packaging/_elffile.py:ELFFile.interpreter"]}
{"id": "C128", "title": "The Xcode wrapper around ninja shows the right targets, settings and files", "statement": "The Xcode project that builds with ninja shows, in their order, exactly the targets that are asked for by pattern and those programs and tests that are not filtered out, and one target for indexing. Each configuration of a shown target has its own deployment target, bundle loader and test host, the build directory of ninja, and no signing if there is a deployment target. The target for indexing lists exactly the sources, resources and inputs of actions of all targets (and the excluded ones if wanted) that do not start with $, each once, in alphabetical order.", "quantifier": "all lists of targets, all patterns, all numbers of configurations and settings, all lists of files", "why_tests_cant": "Targets, configurations and files are unbounded in number and patterns are arbitrary.", "anchors": ["gyp/pylib/gyp/xcode_ninja.py:IsValidTargetForWrapper", "gyp/pylib/gyp/xcode_ninja.py:_TargetFromSpec", "gyp/pylib/gyp/xcode_ninja.py:CreateWrapper"]}
{"id": "C129", "title": "Visual Studio starts a target as its run_as says", "statement": "A user file is written exactly for targets with run_as and for tests; run_as goes first. The program that the debugger starts gets exactly the arguments and the variables of run_as, in its directory. A program named without a directory is the first one of this name in PATH that can be run, and the name is kept if there is none; a name with a directory is kept.", "quantifier": "all lists of arguments and variables of any length, all search paths, any file system", "why_tests_cant": "Arguments are unbounded in number and length, and quoting must be undone by the reader for every mixture of quotes and blanks.", "anchors": ["gyp/pylib/gyp/MSVSUserFile.py:_QuoteWin32CommandLineArgs", "gyp/pylib/gyp/MSVSUserFile.py:_FindCommandInPath", "gyp/pylib/gyp/MSVSUserFile.py:Writer.AddDebugSettings", "gyp/pylib/gyp/generator/msvs.py:_WriteMSVSUserFile"]}
{"id": "C130", "title": "Commands under a lock run one at a time and report their own status", "statement": "With the tools gyp writes for systems without the flock program, two commands with the same lock file never run at the same time, however the steps of any number of processes are ordered; a command that comes while the lock is taken waits for it, all processes can always come to their end, and each ends with the status of its command.", "quantifier": "all numbers of processes, lock files and statuses, all orders of their steps", "why_tests_cant": "Interleavings are unbounded in number and a test sees only those the system happens to choose.", "anchors": ["gyp/pylib/gyp/flock_tool.py:FlockTool.ExecFlock", "gyp/pylib/gyp/flock_tool.py:FlockTool.Dispatch", "gyp/pylib/gyp/flock_tool.py:main", "gyp/pylib/gyp/mac_tool.py:MacTool.ExecFlock", "gyp/pylib/gyp/mac_tool.py:main"]}
{"id": "C131", "title": "The version of the C library is read from the right place", "statement": "The version of glibc is a.b exactly if the text the system gives starts with the numbers a and b and a point between them, whatever follows; every other text, and a system without glibc, gives (-1, -1), which fits no wheel. The version of musl is a.b exactly if of the lines its loader prints the first that is not blank starts with musl and the next one with Version a.b; what it prints cannot be read as two versions.", "quantifier": "all texts in ASCII, of any length and number of lines", "why_tests_cant": "Texts are unbounded, and patched libraries print what no test foresees.", "anchors": ["gyp/pylib/packaging/_manylinux.py:_parse_glibc_version", "gyp/pylib/packaging/_manylinux.py:_get_glibc_version", "gyp/pylib/packaging/_musllinux.py:_parse_musl_version"]}
