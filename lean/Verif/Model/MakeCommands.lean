import Verif.Model.MakeGen
/-
The commands of the common header of the makefiles, `gyp/pylib/gyp/generator/make.py`
`SHARED_HEADER` and `LINK_COMMANDS_*`, for platforms other than macOS.
-/
namespace Gyp

/-- make.py:472-476 the commands of the compilers. -/
def compileCommand (cmd : Str) : Option Str :=
  if cmd = c!"cc" then
    some c!"$(CC.$(TOOLSET)) -o $@ $< $(GYP_CFLAGS) $(DEPFLAGS) $(CFLAGS.$(TOOLSET)) -c"
  else if cmd = c!"cxx" then
    some c!"$(CXX.$(TOOLSET)) -o $@ $< $(GYP_CXXFLAGS) $(DEPFLAGS) $(CXXFLAGS.$(TOOLSET)) -c"
  else none

/-- make.py:148-207 `LINK_COMMANDS_LINUX`. -/
def linkLinux (cmd : Str) : Option Str :=
  if cmd = c!"link" then
    some (c!"$(LINK.$(TOOLSET)) -o $@ $(GYP_LDFLAGS) $(LDFLAGS.$(TOOLSET)) -Wl,--start-group " ++
      c!"$(LD_INPUTS) $(LIBS) -Wl,--end-group")
  else if cmd = c!"solink" then
    some (c!"$(LINK.$(TOOLSET)) -o $@ -shared $(GYP_LDFLAGS) $(LDFLAGS.$(TOOLSET)) " ++
      c!"-Wl,-soname=$(@F) -Wl,--whole-archive $(LD_INPUTS) -Wl,--no-whole-archive $(LIBS)")
  else if cmd = c!"solink_module" then
    some (c!"$(LINK.$(TOOLSET)) -o $@ -shared $(GYP_LDFLAGS) $(LDFLAGS.$(TOOLSET)) " ++
      c!"-Wl,-soname=$(@F) -Wl,--start-group $(filter-out FORCE_DO_CMD, $^) -Wl,--end-group $(LIBS)")
  else none

/-- make.py:2460-2465 the same without `-Wl,--start-group` and `-Wl,--end-group` (which are taken
out of the text; here the result is given). -/
def linkWasm (cmd : Str) : Option Str :=
  if cmd = c!"link" then
    some (c!"$(LINK.$(TOOLSET)) -o $@ $(GYP_LDFLAGS) $(LDFLAGS.$(TOOLSET)) " ++
      c!"$(LD_INPUTS) $(LIBS)")
  else if cmd = c!"solink" then linkLinux c!"solink"
  else if cmd = c!"solink_module" then
    some (c!"$(LINK.$(TOOLSET)) -o $@ -shared $(GYP_LDFLAGS) $(LDFLAGS.$(TOOLSET)) " ++
      c!"-Wl,-soname=$(@F) $(filter-out FORCE_DO_CMD, $^) $(LIBS)")
  else none

/-- make.py:223-273 `LINK_COMMANDS_ANDROID`. -/
def linkAndroid (cmd : Str) : Option Str :=
  if cmd = c!"link" ∨ cmd = c!"link_host" then
    some (c!"$(LINK.$(TOOLSET)) $(GYP_LDFLAGS) $(LDFLAGS.$(TOOLSET)) -o $@ -Wl,--start-group " ++
      c!"$(LD_INPUTS) -Wl,--end-group $(LIBS)")
  else if cmd = c!"solink" then
    some (c!"$(LINK.$(TOOLSET)) -shared $(GYP_LDFLAGS) $(LDFLAGS.$(TOOLSET)) -Wl,-soname=$(@F) " ++
      c!"-o $@ -Wl,--whole-archive $(LD_INPUTS) -Wl,--no-whole-archive $(LIBS)")
  else if cmd = c!"solink_module" then
    some (c!"$(LINK.$(TOOLSET)) -shared $(GYP_LDFLAGS) $(LDFLAGS.$(TOOLSET)) -Wl,-soname=$(@F) " ++
      c!"-o $@ -Wl,--start-group $(filter-out FORCE_DO_CMD, $^) -Wl,--end-group $(LIBS)")
  else if cmd = c!"solink_module_host" then
    some (c!"$(LINK.$(TOOLSET)) -shared $(GYP_LDFLAGS) $(LDFLAGS.$(TOOLSET)) -Wl,-soname=$(@F) " ++
      c!"-o $@ $(filter-out FORCE_DO_CMD, $^) $(LIBS)")
  else none

/-- make.py:276-309 `LINK_COMMANDS_AIX` and `LINK_COMMANDS_OS400` (alike but for archives). -/
def linkAix (cmd : Str) : Option Str :=
  if cmd = c!"link" then
    some c!"$(LINK.$(TOOLSET)) $(GYP_LDFLAGS) $(LDFLAGS.$(TOOLSET)) -o $@ $(LD_INPUTS) $(LIBS)"
  else if cmd = c!"solink" then
    some c!"$(LINK.$(TOOLSET)) -shared $(GYP_LDFLAGS) $(LDFLAGS.$(TOOLSET)) -o $@ $(LD_INPUTS) $(LIBS)"
  else if cmd = c!"solink_module" then
    some (c!"$(LINK.$(TOOLSET)) -shared $(GYP_LDFLAGS) $(LDFLAGS.$(TOOLSET)) -o $@ " ++
      c!"$(filter-out FORCE_DO_CMD, $^) $(LIBS)")
  else none

/-- make.py:312-327 `LINK_COMMANDS_OS390`. -/
def linkZos (cmd : Str) : Option Str :=
  if cmd = c!"link" ∨ cmd = c!"solink" then
    some c!"$(LINK.$(TOOLSET)) $(GYP_LDFLAGS) $(LDFLAGS.$(TOOLSET)) -o $@ $(LD_INPUTS) $(LIBS)"
  else if cmd = c!"solink_module" then
    some (c!"$(LINK.$(TOOLSET)) $(GYP_LDFLAGS) $(LDFLAGS.$(TOOLSET)) -o $@ " ++
      c!"$(filter-out FORCE_DO_CMD, $^) $(LIBS)")
  else none

/-- make.py:2460-2580 the commands that link, by platform; those of macOS are not modelled. -/
def linkCommand (flavor cmd : Str) : Option Str :=
  if flavor = c!"mac" then none
  else if flavor = c!"android" then linkAndroid cmd
  else if flavor = c!"zos" then linkZos cmd
  else if flavor = c!"aix" ∨ flavor = c!"os400" then linkAix cmd
  else if flavor = c!"wasi" ∨ flavor = c!"wasm" then linkWasm cmd
  else linkLinux cmd

end Gyp
