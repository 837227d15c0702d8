/-
Generated by scripts/gen_commands.py from go/builtin_commands.go; one entry per entry of the Go
table, in the same order.
-/
import Verif.Model.Basic

namespace Viml

/-- The words that occur in the `flags` strings of go/builtin_commands.go, and `USERCMD`
(go/vimlparser.go:864).  Simplification: a flags string such as `"RANGE|BANG"` is the list of its
words; the code only ever tests `\bWORD\b` on it. -/
inductive Flag
  | ARGOPT | BANG | BUFNAME | BUFUNL | CMDWIN | COUNT | CTRLV | DFLALL | EDITCMD | EXFLAGS | EXTRA | FILE1 | FILES | MODIFY | NEEDARG | NOSPC | NOTADR | NOTRLCOM | RANGE | REGSTR | SBOXOK | TRLBAR | USECTRLV | WHOLEFOLD | WORD1 | XFILE | ZEROR | USERCMD
deriving DecidableEq, Repr, Inhabited

/-- `Cmd`, go/type.go:35-40. -/
structure Cmd where
  name : Str
  minlen : Nat
  flags : List Flag
  parser : Str
deriving DecidableEq, Repr, Inhabited

/-- go/builtin_commands.go:7-10 `neovim_additional_commands` -/
def neovimAdditionalCommands : List Cmd := [
  ⟨cs!"rshada", 3, [.BANG, .FILE1, .TRLBAR, .CMDWIN], cs!"parse_cmd_common"⟩,
  ⟨cs!"wshada", 3, [.BANG, .FILE1, .TRLBAR, .CMDWIN], cs!"parse_cmd_common"⟩]

/-- go/builtin_commands.go:11-19 `neovim_removed_commands` -/
def neovimRemovedCommands : List Cmd := [
  ⟨cs!"Print", 1, [.RANGE, .WHOLEFOLD, .COUNT, .EXFLAGS, .TRLBAR, .CMDWIN], cs!"parse_cmd_common"⟩,
  ⟨cs!"fixdel", 3, [.TRLBAR, .CMDWIN], cs!"parse_cmd_common"⟩,
  ⟨cs!"helpfind", 5, [.EXTRA, .NOTRLCOM], cs!"parse_cmd_common"⟩,
  ⟨cs!"open", 1, [.RANGE, .BANG, .EXTRA], cs!"parse_cmd_common"⟩,
  ⟨cs!"shell", 2, [.TRLBAR, .CMDWIN], cs!"parse_cmd_common"⟩,
  ⟨cs!"tearoff", 2, [.NEEDARG, .EXTRA, .TRLBAR, .NOTRLCOM, .CMDWIN], cs!"parse_cmd_common"⟩,
  ⟨cs!"gvim", 2, [.BANG, .FILES, .EDITCMD, .ARGOPT, .TRLBAR, .CMDWIN], cs!"parse_cmd_common"⟩]

/-- go/builtin_commands.go:21-80 -/
def builtinCommands0 : List Cmd := [
  ⟨cs!"append", 1, [.BANG, .RANGE, .ZEROR, .TRLBAR, .CMDWIN, .MODIFY], cs!"parse_cmd_append"⟩,
  ⟨cs!"abbreviate", 2, [.EXTRA, .TRLBAR, .NOTRLCOM, .USECTRLV, .CMDWIN], cs!"parse_cmd_common"⟩,
  ⟨cs!"abclear", 3, [.EXTRA, .TRLBAR, .CMDWIN], cs!"parse_cmd_common"⟩,
  ⟨cs!"aboveleft", 3, [.NEEDARG, .EXTRA, .NOTRLCOM], cs!"parse_cmd_common"⟩,
  ⟨cs!"all", 2, [.BANG, .RANGE, .NOTADR, .COUNT, .TRLBAR], cs!"parse_cmd_common"⟩,
  ⟨cs!"amenu", 2, [.RANGE, .NOTADR, .ZEROR, .EXTRA, .TRLBAR, .NOTRLCOM, .USECTRLV, .CMDWIN], cs!"parse_cmd_common"⟩,
  ⟨cs!"anoremenu", 2, [.RANGE, .NOTADR, .ZEROR, .EXTRA, .TRLBAR, .NOTRLCOM, .USECTRLV, .CMDWIN], cs!"parse_cmd_common"⟩,
  ⟨cs!"args", 2, [.BANG, .FILES, .EDITCMD, .ARGOPT, .TRLBAR], cs!"parse_cmd_common"⟩,
  ⟨cs!"argadd", 4, [.BANG, .NEEDARG, .RANGE, .NOTADR, .ZEROR, .FILES, .TRLBAR], cs!"parse_cmd_common"⟩,
  ⟨cs!"argdelete", 4, [.BANG, .RANGE, .NOTADR, .FILES, .TRLBAR], cs!"parse_cmd_common"⟩,
  ⟨cs!"argedit", 4, [.BANG, .NEEDARG, .RANGE, .NOTADR, .FILE1, .EDITCMD, .ARGOPT, .TRLBAR], cs!"parse_cmd_common"⟩,
  ⟨cs!"argdo", 5, [.BANG, .NEEDARG, .EXTRA, .NOTRLCOM], cs!"parse_cmd_common"⟩,
  ⟨cs!"argglobal", 4, [.BANG, .FILES, .EDITCMD, .ARGOPT, .TRLBAR], cs!"parse_cmd_common"⟩,
  ⟨cs!"arglocal", 4, [.BANG, .FILES, .EDITCMD, .ARGOPT, .TRLBAR], cs!"parse_cmd_common"⟩,
  ⟨cs!"argument", 4, [.BANG, .RANGE, .NOTADR, .COUNT, .EXTRA, .EDITCMD, .ARGOPT, .TRLBAR], cs!"parse_cmd_common"⟩,
  ⟨cs!"ascii", 2, [.TRLBAR, .SBOXOK, .CMDWIN], cs!"parse_cmd_common"⟩,
  ⟨cs!"autocmd", 2, [.BANG, .EXTRA, .NOTRLCOM, .USECTRLV, .CMDWIN], cs!"parse_cmd_common"⟩,
  ⟨cs!"augroup", 3, [.BANG, .WORD1, .TRLBAR, .CMDWIN], cs!"parse_cmd_common"⟩,
  ⟨cs!"aunmenu", 3, [.EXTRA, .TRLBAR, .NOTRLCOM, .USECTRLV, .CMDWIN], cs!"parse_cmd_common"⟩,
  ⟨cs!"buffer", 1, [.BANG, .RANGE, .NOTADR, .BUFNAME, .BUFUNL, .COUNT, .EXTRA, .TRLBAR], cs!"parse_cmd_common"⟩,
  ⟨cs!"bNext", 2, [.BANG, .RANGE, .NOTADR, .COUNT, .TRLBAR], cs!"parse_cmd_common"⟩,
  ⟨cs!"ball", 2, [.RANGE, .NOTADR, .COUNT, .TRLBAR], cs!"parse_cmd_common"⟩,
  ⟨cs!"badd", 3, [.NEEDARG, .FILE1, .EDITCMD, .TRLBAR, .CMDWIN], cs!"parse_cmd_common"⟩,
  ⟨cs!"bdelete", 2, [.BANG, .RANGE, .NOTADR, .BUFNAME, .COUNT, .EXTRA, .TRLBAR], cs!"parse_cmd_common"⟩,
  ⟨cs!"behave", 2, [.NEEDARG, .WORD1, .TRLBAR, .CMDWIN], cs!"parse_cmd_common"⟩,
  ⟨cs!"belowright", 3, [.NEEDARG, .EXTRA, .NOTRLCOM], cs!"parse_cmd_common"⟩,
  ⟨cs!"bfirst", 2, [.BANG, .RANGE, .NOTADR, .TRLBAR], cs!"parse_cmd_common"⟩,
  ⟨cs!"blast", 2, [.BANG, .RANGE, .NOTADR, .TRLBAR], cs!"parse_cmd_common"⟩,
  ⟨cs!"bmodified", 2, [.BANG, .RANGE, .NOTADR, .COUNT, .TRLBAR], cs!"parse_cmd_common"⟩,
  ⟨cs!"bnext", 2, [.BANG, .RANGE, .NOTADR, .COUNT, .TRLBAR], cs!"parse_cmd_common"⟩,
  ⟨cs!"botright", 2, [.NEEDARG, .EXTRA, .NOTRLCOM], cs!"parse_cmd_common"⟩,
  ⟨cs!"bprevious", 2, [.BANG, .RANGE, .NOTADR, .COUNT, .TRLBAR], cs!"parse_cmd_common"⟩,
  ⟨cs!"brewind", 2, [.BANG, .RANGE, .NOTADR, .TRLBAR], cs!"parse_cmd_common"⟩,
  ⟨cs!"break", 4, [.TRLBAR, .SBOXOK, .CMDWIN], cs!"parse_cmd_break"⟩,
  ⟨cs!"breakadd", 6, [.EXTRA, .TRLBAR, .CMDWIN], cs!"parse_cmd_common"⟩,
  ⟨cs!"breakdel", 6, [.EXTRA, .TRLBAR, .CMDWIN], cs!"parse_cmd_common"⟩,
  ⟨cs!"breaklist", 6, [.EXTRA, .TRLBAR, .CMDWIN], cs!"parse_cmd_common"⟩,
  ⟨cs!"browse", 3, [.NEEDARG, .EXTRA, .NOTRLCOM, .CMDWIN], cs!"parse_cmd_common"⟩,
  ⟨cs!"bufdo", 5, [.BANG, .NEEDARG, .EXTRA, .NOTRLCOM], cs!"parse_cmd_common"⟩,
  ⟨cs!"buffers", 7, [.BANG, .TRLBAR, .CMDWIN], cs!"parse_cmd_common"⟩,
  ⟨cs!"bunload", 3, [.BANG, .RANGE, .NOTADR, .BUFNAME, .COUNT, .EXTRA, .TRLBAR], cs!"parse_cmd_common"⟩,
  ⟨cs!"bwipeout", 2, [.BANG, .RANGE, .NOTADR, .BUFNAME, .BUFUNL, .COUNT, .EXTRA, .TRLBAR], cs!"parse_cmd_common"⟩,
  ⟨cs!"change", 1, [.BANG, .WHOLEFOLD, .RANGE, .COUNT, .TRLBAR, .CMDWIN, .MODIFY], cs!"parse_cmd_common"⟩,
  ⟨cs!"cNext", 2, [.RANGE, .NOTADR, .COUNT, .TRLBAR, .BANG], cs!"parse_cmd_common"⟩,
  ⟨cs!"cNfile", 3, [.RANGE, .NOTADR, .COUNT, .TRLBAR, .BANG], cs!"parse_cmd_common"⟩,
  ⟨cs!"cabbrev", 2, [.EXTRA, .TRLBAR, .NOTRLCOM, .USECTRLV, .CMDWIN], cs!"parse_cmd_common"⟩,
  ⟨cs!"cabclear", 4, [.EXTRA, .TRLBAR, .CMDWIN], cs!"parse_cmd_common"⟩,
  ⟨cs!"caddbuffer", 3, [.RANGE, .NOTADR, .WORD1, .TRLBAR], cs!"parse_cmd_common"⟩,
  ⟨cs!"caddexpr", 5, [.NEEDARG, .WORD1, .NOTRLCOM, .TRLBAR], cs!"parse_cmd_common"⟩,
  ⟨cs!"caddfile", 5, [.TRLBAR, .FILE1], cs!"parse_cmd_common"⟩,
  ⟨cs!"call", 3, [.RANGE, .NEEDARG, .EXTRA, .NOTRLCOM, .SBOXOK, .CMDWIN], cs!"parse_cmd_call"⟩,
  ⟨cs!"catch", 3, [.EXTRA, .SBOXOK, .CMDWIN], cs!"parse_cmd_catch"⟩,
  ⟨cs!"cbuffer", 2, [.BANG, .RANGE, .NOTADR, .WORD1, .TRLBAR], cs!"parse_cmd_common"⟩,
  ⟨cs!"cc", 2, [.RANGE, .NOTADR, .COUNT, .TRLBAR, .BANG], cs!"parse_cmd_common"⟩,
  ⟨cs!"cclose", 3, [.RANGE, .NOTADR, .COUNT, .TRLBAR], cs!"parse_cmd_common"⟩,
  ⟨cs!"cd", 2, [.BANG, .FILE1, .TRLBAR, .CMDWIN], cs!"parse_cmd_common"⟩,
  ⟨cs!"center", 2, [.TRLBAR, .RANGE, .WHOLEFOLD, .EXTRA, .CMDWIN, .MODIFY], cs!"parse_cmd_common"⟩,
  ⟨cs!"cexpr", 3, [.NEEDARG, .WORD1, .NOTRLCOM, .TRLBAR, .BANG], cs!"parse_cmd_common"⟩,
  ⟨cs!"cfile", 2, [.TRLBAR, .FILE1, .BANG], cs!"parse_cmd_common"⟩,
  ⟨cs!"cfirst", 4, [.RANGE, .NOTADR, .COUNT, .TRLBAR, .BANG], cs!"parse_cmd_common"⟩]

/-- go/builtin_commands.go:81-140 -/
def builtinCommands1 : List Cmd := [
  ⟨cs!"cgetbuffer", 5, [.RANGE, .NOTADR, .WORD1, .TRLBAR], cs!"parse_cmd_common"⟩,
  ⟨cs!"cgetexpr", 5, [.NEEDARG, .WORD1, .NOTRLCOM, .TRLBAR], cs!"parse_cmd_common"⟩,
  ⟨cs!"cgetfile", 2, [.TRLBAR, .FILE1], cs!"parse_cmd_common"⟩,
  ⟨cs!"changes", 7, [.TRLBAR, .CMDWIN], cs!"parse_cmd_common"⟩,
  ⟨cs!"chdir", 3, [.BANG, .FILE1, .TRLBAR, .CMDWIN], cs!"parse_cmd_common"⟩,
  ⟨cs!"checkpath", 3, [.TRLBAR, .BANG, .CMDWIN], cs!"parse_cmd_common"⟩,
  ⟨cs!"checktime", 6, [.RANGE, .NOTADR, .BUFNAME, .COUNT, .EXTRA, .TRLBAR], cs!"parse_cmd_common"⟩,
  ⟨cs!"clist", 2, [.BANG, .EXTRA, .TRLBAR, .CMDWIN], cs!"parse_cmd_common"⟩,
  ⟨cs!"clast", 3, [.RANGE, .NOTADR, .COUNT, .TRLBAR, .BANG], cs!"parse_cmd_common"⟩,
  ⟨cs!"close", 3, [.BANG, .TRLBAR, .CMDWIN], cs!"parse_cmd_common"⟩,
  ⟨cs!"cmap", 2, [.EXTRA, .TRLBAR, .NOTRLCOM, .USECTRLV, .CMDWIN], cs!"parse_cmd_common"⟩,
  ⟨cs!"cmapclear", 5, [.EXTRA, .TRLBAR, .CMDWIN], cs!"parse_cmd_common"⟩,
  ⟨cs!"cmenu", 3, [.RANGE, .NOTADR, .ZEROR, .EXTRA, .TRLBAR, .NOTRLCOM, .USECTRLV, .CMDWIN], cs!"parse_cmd_common"⟩,
  ⟨cs!"cnext", 2, [.RANGE, .NOTADR, .COUNT, .TRLBAR, .BANG], cs!"parse_cmd_common"⟩,
  ⟨cs!"cnewer", 4, [.RANGE, .NOTADR, .COUNT, .TRLBAR], cs!"parse_cmd_common"⟩,
  ⟨cs!"cnfile", 3, [.RANGE, .NOTADR, .COUNT, .TRLBAR, .BANG], cs!"parse_cmd_common"⟩,
  ⟨cs!"cnoremap", 3, [.EXTRA, .TRLBAR, .NOTRLCOM, .USECTRLV, .CMDWIN], cs!"parse_cmd_common"⟩,
  ⟨cs!"cnoreabbrev", 6, [.EXTRA, .TRLBAR, .NOTRLCOM, .USECTRLV, .CMDWIN], cs!"parse_cmd_common"⟩,
  ⟨cs!"cnoremenu", 7, [.RANGE, .NOTADR, .ZEROR, .EXTRA, .TRLBAR, .NOTRLCOM, .USECTRLV, .CMDWIN], cs!"parse_cmd_common"⟩,
  ⟨cs!"copy", 2, [.RANGE, .WHOLEFOLD, .EXTRA, .TRLBAR, .CMDWIN, .MODIFY], cs!"parse_cmd_common"⟩,
  ⟨cs!"colder", 3, [.RANGE, .NOTADR, .COUNT, .TRLBAR], cs!"parse_cmd_common"⟩,
  ⟨cs!"colorscheme", 4, [.WORD1, .TRLBAR, .CMDWIN], cs!"parse_cmd_common"⟩,
  ⟨cs!"command", 3, [.EXTRA, .BANG, .NOTRLCOM, .USECTRLV, .CMDWIN], cs!"parse_cmd_common"⟩,
  ⟨cs!"comclear", 4, [.TRLBAR, .CMDWIN], cs!"parse_cmd_common"⟩,
  ⟨cs!"compiler", 4, [.BANG, .TRLBAR, .WORD1, .CMDWIN], cs!"parse_cmd_common"⟩,
  ⟨cs!"continue", 3, [.TRLBAR, .SBOXOK, .CMDWIN], cs!"parse_cmd_continue"⟩,
  ⟨cs!"confirm", 4, [.NEEDARG, .EXTRA, .NOTRLCOM, .CMDWIN], cs!"parse_cmd_common"⟩,
  ⟨cs!"copen", 4, [.RANGE, .NOTADR, .COUNT, .TRLBAR], cs!"parse_cmd_common"⟩,
  ⟨cs!"cprevious", 2, [.RANGE, .NOTADR, .COUNT, .TRLBAR, .BANG], cs!"parse_cmd_common"⟩,
  ⟨cs!"cpfile", 3, [.RANGE, .NOTADR, .COUNT, .TRLBAR, .BANG], cs!"parse_cmd_common"⟩,
  ⟨cs!"cquit", 2, [.TRLBAR, .BANG], cs!"parse_cmd_common"⟩,
  ⟨cs!"crewind", 2, [.RANGE, .NOTADR, .COUNT, .TRLBAR, .BANG], cs!"parse_cmd_common"⟩,
  ⟨cs!"cscope", 2, [.EXTRA, .NOTRLCOM, .XFILE], cs!"parse_cmd_common"⟩,
  ⟨cs!"cstag", 3, [.BANG, .TRLBAR, .WORD1], cs!"parse_cmd_common"⟩,
  ⟨cs!"cunmap", 2, [.EXTRA, .TRLBAR, .NOTRLCOM, .USECTRLV, .CMDWIN], cs!"parse_cmd_common"⟩,
  ⟨cs!"cunabbrev", 4, [.EXTRA, .TRLBAR, .NOTRLCOM, .USECTRLV, .CMDWIN], cs!"parse_cmd_common"⟩,
  ⟨cs!"cunmenu", 5, [.EXTRA, .TRLBAR, .NOTRLCOM, .USECTRLV, .CMDWIN], cs!"parse_cmd_common"⟩,
  ⟨cs!"cwindow", 2, [.RANGE, .NOTADR, .COUNT, .TRLBAR], cs!"parse_cmd_common"⟩,
  ⟨cs!"delete", 1, [.RANGE, .WHOLEFOLD, .REGSTR, .COUNT, .TRLBAR, .CMDWIN, .MODIFY], cs!"parse_cmd_common"⟩,
  ⟨cs!"delmarks", 4, [.BANG, .EXTRA, .TRLBAR, .CMDWIN], cs!"parse_cmd_common"⟩,
  ⟨cs!"debug", 3, [.NEEDARG, .EXTRA, .NOTRLCOM, .SBOXOK, .CMDWIN], cs!"parse_cmd_common"⟩,
  ⟨cs!"debuggreedy", 6, [.RANGE, .NOTADR, .ZEROR, .TRLBAR, .CMDWIN], cs!"parse_cmd_common"⟩,
  ⟨cs!"delcommand", 4, [.NEEDARG, .WORD1, .TRLBAR, .CMDWIN], cs!"parse_cmd_common"⟩,
  ⟨cs!"delfunction", 4, [.BANG, .NEEDARG, .WORD1, .CMDWIN], cs!"parse_cmd_delfunction"⟩,
  ⟨cs!"diffupdate", 3, [.BANG, .TRLBAR], cs!"parse_cmd_common"⟩,
  ⟨cs!"diffget", 5, [.RANGE, .EXTRA, .TRLBAR, .MODIFY], cs!"parse_cmd_common"⟩,
  ⟨cs!"diffoff", 5, [.BANG, .TRLBAR], cs!"parse_cmd_common"⟩,
  ⟨cs!"diffpatch", 5, [.EXTRA, .FILE1, .TRLBAR, .MODIFY], cs!"parse_cmd_common"⟩,
  ⟨cs!"diffput", 6, [.RANGE, .EXTRA, .TRLBAR], cs!"parse_cmd_common"⟩,
  ⟨cs!"diffsplit", 5, [.EXTRA, .FILE1, .TRLBAR], cs!"parse_cmd_common"⟩,
  ⟨cs!"diffthis", 5, [.TRLBAR], cs!"parse_cmd_common"⟩,
  ⟨cs!"digraphs", 3, [.EXTRA, .TRLBAR, .CMDWIN], cs!"parse_cmd_common"⟩,
  ⟨cs!"display", 2, [.EXTRA, .NOTRLCOM, .TRLBAR, .SBOXOK, .CMDWIN], cs!"parse_cmd_common"⟩,
  ⟨cs!"djump", 2, [.BANG, .RANGE, .DFLALL, .WHOLEFOLD, .EXTRA], cs!"parse_cmd_common"⟩,
  ⟨cs!"dlist", 2, [.BANG, .RANGE, .DFLALL, .WHOLEFOLD, .EXTRA, .CMDWIN], cs!"parse_cmd_common"⟩,
  ⟨cs!"doautocmd", 2, [.EXTRA, .TRLBAR, .CMDWIN], cs!"parse_cmd_common"⟩,
  ⟨cs!"doautoall", 7, [.EXTRA, .TRLBAR, .CMDWIN], cs!"parse_cmd_common"⟩,
  ⟨cs!"drop", 2, [.FILES, .EDITCMD, .NEEDARG, .ARGOPT, .TRLBAR], cs!"parse_cmd_common"⟩,
  ⟨cs!"dsearch", 2, [.BANG, .RANGE, .DFLALL, .WHOLEFOLD, .EXTRA, .CMDWIN], cs!"parse_cmd_common"⟩,
  ⟨cs!"dsplit", 3, [.BANG, .RANGE, .DFLALL, .WHOLEFOLD, .EXTRA], cs!"parse_cmd_common"⟩]

/-- go/builtin_commands.go:141-200 -/
def builtinCommands2 : List Cmd := [
  ⟨cs!"edit", 1, [.BANG, .FILE1, .EDITCMD, .ARGOPT, .TRLBAR], cs!"parse_cmd_common"⟩,
  ⟨cs!"earlier", 2, [.TRLBAR, .EXTRA, .NOSPC, .CMDWIN], cs!"parse_cmd_common"⟩,
  ⟨cs!"echo", 2, [.EXTRA, .NOTRLCOM, .SBOXOK, .CMDWIN], cs!"parse_cmd_echo"⟩,
  ⟨cs!"echoerr", 5, [.EXTRA, .NOTRLCOM, .SBOXOK, .CMDWIN], cs!"parse_cmd_echoerr"⟩,
  ⟨cs!"echohl", 5, [.EXTRA, .TRLBAR, .SBOXOK, .CMDWIN], cs!"parse_cmd_echohl"⟩,
  ⟨cs!"echomsg", 5, [.EXTRA, .NOTRLCOM, .SBOXOK, .CMDWIN], cs!"parse_cmd_echomsg"⟩,
  ⟨cs!"echon", 5, [.EXTRA, .NOTRLCOM, .SBOXOK, .CMDWIN], cs!"parse_cmd_echon"⟩,
  ⟨cs!"else", 2, [.TRLBAR, .SBOXOK, .CMDWIN], cs!"parse_cmd_else"⟩,
  ⟨cs!"elseif", 5, [.EXTRA, .NOTRLCOM, .SBOXOK, .CMDWIN], cs!"parse_cmd_elseif"⟩,
  ⟨cs!"emenu", 2, [.NEEDARG, .EXTRA, .TRLBAR, .NOTRLCOM, .RANGE, .NOTADR, .CMDWIN], cs!"parse_cmd_common"⟩,
  ⟨cs!"endif", 2, [.TRLBAR, .SBOXOK, .CMDWIN], cs!"parse_cmd_endif"⟩,
  ⟨cs!"endfor", 5, [.TRLBAR, .SBOXOK, .CMDWIN], cs!"parse_cmd_endfor"⟩,
  ⟨cs!"endfunction", 4, [.TRLBAR, .CMDWIN], cs!"parse_cmd_endfunction"⟩,
  ⟨cs!"endtry", 4, [.TRLBAR, .SBOXOK, .CMDWIN], cs!"parse_cmd_endtry"⟩,
  ⟨cs!"endwhile", 4, [.TRLBAR, .SBOXOK, .CMDWIN], cs!"parse_cmd_endwhile"⟩,
  ⟨cs!"enew", 3, [.BANG, .TRLBAR], cs!"parse_cmd_common"⟩,
  ⟨cs!"eval", 2, [.EXTRA, .NOTRLCOM, .SBOXOK, .CMDWIN], cs!"parse_cmd_eval"⟩,
  ⟨cs!"ex", 2, [.BANG, .FILE1, .EDITCMD, .ARGOPT, .TRLBAR], cs!"parse_cmd_common"⟩,
  ⟨cs!"execute", 3, [.EXTRA, .NOTRLCOM, .SBOXOK, .CMDWIN], cs!"parse_cmd_execute"⟩,
  ⟨cs!"exit", 3, [.RANGE, .WHOLEFOLD, .BANG, .FILE1, .ARGOPT, .DFLALL, .TRLBAR, .CMDWIN], cs!"parse_cmd_common"⟩,
  ⟨cs!"exusage", 3, [.TRLBAR], cs!"parse_cmd_common"⟩,
  ⟨cs!"file", 1, [.RANGE, .NOTADR, .ZEROR, .BANG, .FILE1, .TRLBAR], cs!"parse_cmd_common"⟩,
  ⟨cs!"files", 5, [.BANG, .TRLBAR, .CMDWIN], cs!"parse_cmd_common"⟩,
  ⟨cs!"filetype", 5, [.EXTRA, .TRLBAR, .CMDWIN], cs!"parse_cmd_common"⟩,
  ⟨cs!"find", 3, [.RANGE, .NOTADR, .BANG, .FILE1, .EDITCMD, .ARGOPT, .TRLBAR], cs!"parse_cmd_common"⟩,
  ⟨cs!"finally", 4, [.TRLBAR, .SBOXOK, .CMDWIN], cs!"parse_cmd_finally"⟩,
  ⟨cs!"finish", 4, [.TRLBAR, .SBOXOK, .CMDWIN], cs!"parse_cmd_finish"⟩,
  ⟨cs!"first", 3, [.EXTRA, .BANG, .EDITCMD, .ARGOPT, .TRLBAR], cs!"parse_cmd_common"⟩,
  ⟨cs!"fixdel", 3, [.TRLBAR, .CMDWIN], cs!"parse_cmd_common"⟩,
  ⟨cs!"fold", 2, [.RANGE, .WHOLEFOLD, .TRLBAR, .SBOXOK, .CMDWIN], cs!"parse_cmd_common"⟩,
  ⟨cs!"foldclose", 5, [.RANGE, .BANG, .WHOLEFOLD, .TRLBAR, .SBOXOK, .CMDWIN], cs!"parse_cmd_common"⟩,
  ⟨cs!"folddoopen", 5, [.RANGE, .DFLALL, .NEEDARG, .EXTRA, .NOTRLCOM], cs!"parse_cmd_common"⟩,
  ⟨cs!"folddoclosed", 7, [.RANGE, .DFLALL, .NEEDARG, .EXTRA, .NOTRLCOM], cs!"parse_cmd_common"⟩,
  ⟨cs!"foldopen", 5, [.RANGE, .BANG, .WHOLEFOLD, .TRLBAR, .SBOXOK, .CMDWIN], cs!"parse_cmd_common"⟩,
  ⟨cs!"for", 3, [.EXTRA, .NOTRLCOM, .SBOXOK, .CMDWIN], cs!"parse_cmd_for"⟩,
  ⟨cs!"function", 2, [.EXTRA, .BANG, .CMDWIN], cs!"parse_cmd_function"⟩,
  ⟨cs!"global", 1, [.RANGE, .WHOLEFOLD, .BANG, .EXTRA, .DFLALL, .SBOXOK, .CMDWIN], cs!"parse_cmd_common"⟩,
  ⟨cs!"goto", 2, [.RANGE, .NOTADR, .COUNT, .TRLBAR, .SBOXOK, .CMDWIN], cs!"parse_cmd_common"⟩,
  ⟨cs!"grep", 2, [.RANGE, .NOTADR, .BANG, .NEEDARG, .EXTRA, .NOTRLCOM, .TRLBAR, .XFILE], cs!"parse_cmd_common"⟩,
  ⟨cs!"grepadd", 5, [.RANGE, .NOTADR, .BANG, .NEEDARG, .EXTRA, .NOTRLCOM, .TRLBAR, .XFILE], cs!"parse_cmd_common"⟩,
  ⟨cs!"gui", 2, [.BANG, .FILES, .EDITCMD, .ARGOPT, .TRLBAR, .CMDWIN], cs!"parse_cmd_common"⟩,
  ⟨cs!"gvim", 2, [.BANG, .FILES, .EDITCMD, .ARGOPT, .TRLBAR, .CMDWIN], cs!"parse_cmd_common"⟩,
  ⟨cs!"hardcopy", 2, [.RANGE, .COUNT, .EXTRA, .TRLBAR, .DFLALL, .BANG], cs!"parse_cmd_common"⟩,
  ⟨cs!"help", 1, [.BANG, .EXTRA, .NOTRLCOM], cs!"parse_cmd_common"⟩,
  ⟨cs!"helpfind", 5, [.EXTRA, .NOTRLCOM], cs!"parse_cmd_common"⟩,
  ⟨cs!"helpgrep", 5, [.EXTRA, .NOTRLCOM, .NEEDARG], cs!"parse_cmd_common"⟩,
  ⟨cs!"helptags", 5, [.NEEDARG, .FILES, .TRLBAR, .CMDWIN], cs!"parse_cmd_common"⟩,
  ⟨cs!"highlight", 2, [.BANG, .EXTRA, .TRLBAR, .SBOXOK, .CMDWIN], cs!"parse_cmd_common"⟩,
  ⟨cs!"hide", 3, [.BANG, .EXTRA, .NOTRLCOM], cs!"parse_cmd_common"⟩,
  ⟨cs!"history", 3, [.EXTRA, .TRLBAR, .CMDWIN], cs!"parse_cmd_common"⟩,
  ⟨cs!"insert", 1, [.BANG, .RANGE, .TRLBAR, .CMDWIN, .MODIFY], cs!"parse_cmd_insert"⟩,
  ⟨cs!"iabbrev", 2, [.EXTRA, .TRLBAR, .NOTRLCOM, .USECTRLV, .CMDWIN], cs!"parse_cmd_common"⟩,
  ⟨cs!"iabclear", 4, [.EXTRA, .TRLBAR, .CMDWIN], cs!"parse_cmd_common"⟩,
  ⟨cs!"if", 2, [.EXTRA, .NOTRLCOM, .SBOXOK, .CMDWIN], cs!"parse_cmd_if"⟩,
  ⟨cs!"ijump", 2, [.BANG, .RANGE, .DFLALL, .WHOLEFOLD, .EXTRA], cs!"parse_cmd_common"⟩,
  ⟨cs!"ilist", 2, [.BANG, .RANGE, .DFLALL, .WHOLEFOLD, .EXTRA, .CMDWIN], cs!"parse_cmd_common"⟩,
  ⟨cs!"imap", 2, [.EXTRA, .TRLBAR, .NOTRLCOM, .USECTRLV, .CMDWIN], cs!"parse_cmd_common"⟩,
  ⟨cs!"imapclear", 5, [.EXTRA, .TRLBAR, .CMDWIN], cs!"parse_cmd_common"⟩,
  ⟨cs!"imenu", 3, [.RANGE, .NOTADR, .ZEROR, .EXTRA, .TRLBAR, .NOTRLCOM, .USECTRLV, .CMDWIN], cs!"parse_cmd_common"⟩,
  ⟨cs!"inoremap", 3, [.EXTRA, .TRLBAR, .NOTRLCOM, .USECTRLV, .CMDWIN], cs!"parse_cmd_common"⟩]

/-- go/builtin_commands.go:201-260 -/
def builtinCommands3 : List Cmd := [
  ⟨cs!"inoreabbrev", 6, [.EXTRA, .TRLBAR, .NOTRLCOM, .USECTRLV, .CMDWIN], cs!"parse_cmd_common"⟩,
  ⟨cs!"inoremenu", 7, [.RANGE, .NOTADR, .ZEROR, .EXTRA, .TRLBAR, .NOTRLCOM, .USECTRLV, .CMDWIN], cs!"parse_cmd_common"⟩,
  ⟨cs!"intro", 3, [.TRLBAR, .CMDWIN], cs!"parse_cmd_common"⟩,
  ⟨cs!"isearch", 2, [.BANG, .RANGE, .DFLALL, .WHOLEFOLD, .EXTRA, .CMDWIN], cs!"parse_cmd_common"⟩,
  ⟨cs!"isplit", 3, [.BANG, .RANGE, .DFLALL, .WHOLEFOLD, .EXTRA], cs!"parse_cmd_common"⟩,
  ⟨cs!"iunmap", 2, [.EXTRA, .TRLBAR, .NOTRLCOM, .USECTRLV, .CMDWIN], cs!"parse_cmd_common"⟩,
  ⟨cs!"iunabbrev", 4, [.EXTRA, .TRLBAR, .NOTRLCOM, .USECTRLV, .CMDWIN], cs!"parse_cmd_common"⟩,
  ⟨cs!"iunmenu", 5, [.EXTRA, .TRLBAR, .NOTRLCOM, .USECTRLV, .CMDWIN], cs!"parse_cmd_common"⟩,
  ⟨cs!"join", 1, [.BANG, .RANGE, .WHOLEFOLD, .COUNT, .EXFLAGS, .TRLBAR, .CMDWIN, .MODIFY], cs!"parse_cmd_common"⟩,
  ⟨cs!"jumps", 2, [.TRLBAR, .CMDWIN], cs!"parse_cmd_common"⟩,
  ⟨cs!"k", 1, [.RANGE, .WORD1, .TRLBAR, .SBOXOK, .CMDWIN], cs!"parse_cmd_common"⟩,
  ⟨cs!"keepalt", 5, [.NEEDARG, .EXTRA, .NOTRLCOM], cs!"parse_cmd_common"⟩,
  ⟨cs!"keepmarks", 3, [.NEEDARG, .EXTRA, .NOTRLCOM], cs!"parse_cmd_common"⟩,
  ⟨cs!"keepjumps", 5, [.NEEDARG, .EXTRA, .NOTRLCOM], cs!"parse_cmd_common"⟩,
  ⟨cs!"keeppatterns", 5, [.NEEDARG, .EXTRA, .NOTRLCOM], cs!"parse_cmd_common"⟩,
  ⟨cs!"lNext", 2, [.RANGE, .NOTADR, .COUNT, .TRLBAR, .BANG], cs!"parse_cmd_common"⟩,
  ⟨cs!"lNfile", 3, [.RANGE, .NOTADR, .COUNT, .TRLBAR, .BANG], cs!"parse_cmd_common"⟩,
  ⟨cs!"list", 1, [.RANGE, .WHOLEFOLD, .COUNT, .EXFLAGS, .TRLBAR, .CMDWIN], cs!"parse_cmd_common"⟩,
  ⟨cs!"laddexpr", 3, [.NEEDARG, .WORD1, .NOTRLCOM, .TRLBAR], cs!"parse_cmd_common"⟩,
  ⟨cs!"laddbuffer", 5, [.RANGE, .NOTADR, .WORD1, .TRLBAR], cs!"parse_cmd_common"⟩,
  ⟨cs!"laddfile", 5, [.TRLBAR, .FILE1], cs!"parse_cmd_common"⟩,
  ⟨cs!"last", 2, [.EXTRA, .BANG, .EDITCMD, .ARGOPT, .TRLBAR], cs!"parse_cmd_common"⟩,
  ⟨cs!"language", 3, [.EXTRA, .TRLBAR, .CMDWIN], cs!"parse_cmd_common"⟩,
  ⟨cs!"later", 3, [.TRLBAR, .EXTRA, .NOSPC, .CMDWIN], cs!"parse_cmd_common"⟩,
  ⟨cs!"lbuffer", 2, [.BANG, .RANGE, .NOTADR, .WORD1, .TRLBAR], cs!"parse_cmd_common"⟩,
  ⟨cs!"lcd", 2, [.BANG, .FILE1, .TRLBAR, .CMDWIN], cs!"parse_cmd_common"⟩,
  ⟨cs!"lchdir", 3, [.BANG, .FILE1, .TRLBAR, .CMDWIN], cs!"parse_cmd_common"⟩,
  ⟨cs!"lclose", 3, [.RANGE, .NOTADR, .COUNT, .TRLBAR], cs!"parse_cmd_common"⟩,
  ⟨cs!"lcscope", 3, [.EXTRA, .NOTRLCOM, .XFILE], cs!"parse_cmd_common"⟩,
  ⟨cs!"left", 2, [.TRLBAR, .RANGE, .WHOLEFOLD, .EXTRA, .CMDWIN, .MODIFY], cs!"parse_cmd_common"⟩,
  ⟨cs!"leftabove", 5, [.NEEDARG, .EXTRA, .NOTRLCOM], cs!"parse_cmd_common"⟩,
  ⟨cs!"let", 3, [.EXTRA, .NOTRLCOM, .SBOXOK, .CMDWIN], cs!"parse_cmd_let"⟩,
  ⟨cs!"const", 4, [.EXTRA, .NOTRLCOM, .SBOXOK, .CMDWIN], cs!"parse_cmd_const"⟩,
  ⟨cs!"lexpr", 3, [.NEEDARG, .WORD1, .NOTRLCOM, .TRLBAR, .BANG], cs!"parse_cmd_common"⟩,
  ⟨cs!"lfile", 2, [.TRLBAR, .FILE1, .BANG], cs!"parse_cmd_common"⟩,
  ⟨cs!"lfirst", 4, [.RANGE, .NOTADR, .COUNT, .TRLBAR, .BANG], cs!"parse_cmd_common"⟩,
  ⟨cs!"lgetbuffer", 5, [.RANGE, .NOTADR, .WORD1, .TRLBAR], cs!"parse_cmd_common"⟩,
  ⟨cs!"lgetexpr", 5, [.NEEDARG, .WORD1, .NOTRLCOM, .TRLBAR], cs!"parse_cmd_common"⟩,
  ⟨cs!"lgetfile", 2, [.TRLBAR, .FILE1], cs!"parse_cmd_common"⟩,
  ⟨cs!"lgrep", 3, [.RANGE, .NOTADR, .BANG, .NEEDARG, .EXTRA, .NOTRLCOM, .TRLBAR, .XFILE], cs!"parse_cmd_common"⟩,
  ⟨cs!"lgrepadd", 6, [.RANGE, .NOTADR, .BANG, .NEEDARG, .EXTRA, .NOTRLCOM, .TRLBAR, .XFILE], cs!"parse_cmd_common"⟩,
  ⟨cs!"lhelpgrep", 2, [.EXTRA, .NOTRLCOM, .NEEDARG], cs!"parse_cmd_common"⟩,
  ⟨cs!"ll", 2, [.RANGE, .NOTADR, .COUNT, .TRLBAR, .BANG], cs!"parse_cmd_common"⟩,
  ⟨cs!"llast", 3, [.RANGE, .NOTADR, .COUNT, .TRLBAR, .BANG], cs!"parse_cmd_common"⟩,
  ⟨cs!"list", 3, [.BANG, .EXTRA, .TRLBAR, .CMDWIN], cs!"parse_cmd_common"⟩,
  ⟨cs!"lmake", 4, [.BANG, .EXTRA, .NOTRLCOM, .TRLBAR, .XFILE], cs!"parse_cmd_common"⟩,
  ⟨cs!"lmap", 2, [.EXTRA, .TRLBAR, .NOTRLCOM, .USECTRLV, .CMDWIN], cs!"parse_cmd_common"⟩,
  ⟨cs!"lmapclear", 5, [.EXTRA, .TRLBAR, .CMDWIN], cs!"parse_cmd_common"⟩,
  ⟨cs!"lnext", 3, [.RANGE, .NOTADR, .COUNT, .TRLBAR, .BANG], cs!"parse_cmd_common"⟩,
  ⟨cs!"lnewer", 4, [.RANGE, .NOTADR, .COUNT, .TRLBAR], cs!"parse_cmd_common"⟩,
  ⟨cs!"lnfile", 3, [.RANGE, .NOTADR, .COUNT, .TRLBAR, .BANG], cs!"parse_cmd_common"⟩,
  ⟨cs!"lnoremap", 2, [.EXTRA, .TRLBAR, .NOTRLCOM, .USECTRLV, .CMDWIN], cs!"parse_cmd_common"⟩,
  ⟨cs!"loadkeymap", 5, [.CMDWIN], cs!"parse_cmd_loadkeymap"⟩,
  ⟨cs!"loadview", 2, [.FILE1, .TRLBAR], cs!"parse_cmd_common"⟩,
  ⟨cs!"lockmarks", 3, [.NEEDARG, .EXTRA, .NOTRLCOM], cs!"parse_cmd_common"⟩,
  ⟨cs!"lockvar", 5, [.BANG, .EXTRA, .NEEDARG, .SBOXOK, .CMDWIN], cs!"parse_cmd_lockvar"⟩,
  ⟨cs!"lolder", 3, [.RANGE, .NOTADR, .COUNT, .TRLBAR], cs!"parse_cmd_common"⟩,
  ⟨cs!"lopen", 3, [.RANGE, .NOTADR, .COUNT, .TRLBAR], cs!"parse_cmd_common"⟩,
  ⟨cs!"lprevious", 2, [.RANGE, .NOTADR, .COUNT, .TRLBAR, .BANG], cs!"parse_cmd_common"⟩,
  ⟨cs!"lpfile", 3, [.RANGE, .NOTADR, .COUNT, .TRLBAR, .BANG], cs!"parse_cmd_common"⟩]

/-- go/builtin_commands.go:261-320 -/
def builtinCommands4 : List Cmd := [
  ⟨cs!"lrewind", 2, [.RANGE, .NOTADR, .COUNT, .TRLBAR, .BANG], cs!"parse_cmd_common"⟩,
  ⟨cs!"ls", 2, [.BANG, .TRLBAR, .CMDWIN], cs!"parse_cmd_common"⟩,
  ⟨cs!"ltag", 2, [.NOTADR, .TRLBAR, .BANG, .WORD1], cs!"parse_cmd_common"⟩,
  ⟨cs!"lunmap", 2, [.EXTRA, .TRLBAR, .NOTRLCOM, .USECTRLV, .CMDWIN], cs!"parse_cmd_common"⟩,
  ⟨cs!"lua", 3, [.RANGE, .EXTRA, .NEEDARG, .CMDWIN], cs!"parse_cmd_lua"⟩,
  ⟨cs!"luado", 4, [.RANGE, .DFLALL, .EXTRA, .NEEDARG, .CMDWIN], cs!"parse_cmd_common"⟩,
  ⟨cs!"luafile", 4, [.RANGE, .FILE1, .NEEDARG, .CMDWIN], cs!"parse_cmd_common"⟩,
  ⟨cs!"lvimgrep", 2, [.RANGE, .NOTADR, .BANG, .NEEDARG, .EXTRA, .NOTRLCOM, .TRLBAR, .XFILE], cs!"parse_cmd_common"⟩,
  ⟨cs!"lvimgrepadd", 9, [.RANGE, .NOTADR, .BANG, .NEEDARG, .EXTRA, .NOTRLCOM, .TRLBAR, .XFILE], cs!"parse_cmd_common"⟩,
  ⟨cs!"lwindow", 2, [.RANGE, .NOTADR, .COUNT, .TRLBAR], cs!"parse_cmd_common"⟩,
  ⟨cs!"move", 1, [.RANGE, .WHOLEFOLD, .EXTRA, .TRLBAR, .CMDWIN, .MODIFY], cs!"parse_cmd_common"⟩,
  ⟨cs!"mark", 2, [.RANGE, .WORD1, .TRLBAR, .SBOXOK, .CMDWIN], cs!"parse_cmd_common"⟩,
  ⟨cs!"make", 3, [.BANG, .EXTRA, .NOTRLCOM, .TRLBAR, .XFILE], cs!"parse_cmd_common"⟩,
  ⟨cs!"map", 3, [.BANG, .EXTRA, .TRLBAR, .NOTRLCOM, .USECTRLV, .CMDWIN], cs!"parse_cmd_common"⟩,
  ⟨cs!"mapclear", 4, [.EXTRA, .BANG, .TRLBAR, .CMDWIN], cs!"parse_cmd_common"⟩,
  ⟨cs!"marks", 5, [.EXTRA, .TRLBAR, .CMDWIN], cs!"parse_cmd_common"⟩,
  ⟨cs!"match", 3, [.RANGE, .NOTADR, .EXTRA, .CMDWIN], cs!"parse_cmd_common"⟩,
  ⟨cs!"menu", 2, [.RANGE, .NOTADR, .ZEROR, .BANG, .EXTRA, .TRLBAR, .NOTRLCOM, .USECTRLV, .CMDWIN], cs!"parse_cmd_common"⟩,
  ⟨cs!"menutranslate", 5, [.EXTRA, .TRLBAR, .NOTRLCOM, .USECTRLV, .CMDWIN], cs!"parse_cmd_common"⟩,
  ⟨cs!"messages", 3, [.TRLBAR, .CMDWIN], cs!"parse_cmd_common"⟩,
  ⟨cs!"mkexrc", 2, [.BANG, .FILE1, .TRLBAR, .CMDWIN], cs!"parse_cmd_common"⟩,
  ⟨cs!"mksession", 3, [.BANG, .FILE1, .TRLBAR], cs!"parse_cmd_common"⟩,
  ⟨cs!"mkspell", 4, [.BANG, .NEEDARG, .EXTRA, .NOTRLCOM, .TRLBAR, .XFILE], cs!"parse_cmd_common"⟩,
  ⟨cs!"mkvimrc", 3, [.BANG, .FILE1, .TRLBAR, .CMDWIN], cs!"parse_cmd_common"⟩,
  ⟨cs!"mkview", 5, [.BANG, .FILE1, .TRLBAR], cs!"parse_cmd_common"⟩,
  ⟨cs!"mode", 3, [.WORD1, .TRLBAR, .CMDWIN], cs!"parse_cmd_common"⟩,
  ⟨cs!"mzscheme", 2, [.RANGE, .EXTRA, .DFLALL, .NEEDARG, .CMDWIN, .SBOXOK], cs!"parse_cmd_mzscheme"⟩,
  ⟨cs!"mzfile", 3, [.RANGE, .FILE1, .NEEDARG, .CMDWIN], cs!"parse_cmd_common"⟩,
  ⟨cs!"nbclose", 3, [.TRLBAR, .CMDWIN], cs!"parse_cmd_common"⟩,
  ⟨cs!"nbkey", 2, [.EXTRA, .NOTADR, .NEEDARG], cs!"parse_cmd_common"⟩,
  ⟨cs!"nbstart", 3, [.WORD1, .TRLBAR, .CMDWIN], cs!"parse_cmd_common"⟩,
  ⟨cs!"next", 1, [.RANGE, .NOTADR, .BANG, .FILES, .EDITCMD, .ARGOPT, .TRLBAR], cs!"parse_cmd_common"⟩,
  ⟨cs!"new", 3, [.BANG, .FILE1, .RANGE, .NOTADR, .EDITCMD, .ARGOPT, .TRLBAR], cs!"parse_cmd_common"⟩,
  ⟨cs!"nmap", 2, [.EXTRA, .TRLBAR, .NOTRLCOM, .USECTRLV, .CMDWIN], cs!"parse_cmd_common"⟩,
  ⟨cs!"nmapclear", 5, [.EXTRA, .TRLBAR, .CMDWIN], cs!"parse_cmd_common"⟩,
  ⟨cs!"nmenu", 3, [.RANGE, .NOTADR, .ZEROR, .EXTRA, .TRLBAR, .NOTRLCOM, .USECTRLV, .CMDWIN], cs!"parse_cmd_common"⟩,
  ⟨cs!"nnoremap", 2, [.EXTRA, .TRLBAR, .NOTRLCOM, .USECTRLV, .CMDWIN], cs!"parse_cmd_common"⟩,
  ⟨cs!"nnoremenu", 7, [.RANGE, .NOTADR, .ZEROR, .EXTRA, .TRLBAR, .NOTRLCOM, .USECTRLV, .CMDWIN], cs!"parse_cmd_common"⟩,
  ⟨cs!"noautocmd", 3, [.NEEDARG, .EXTRA, .NOTRLCOM], cs!"parse_cmd_common"⟩,
  ⟨cs!"noremap", 2, [.BANG, .EXTRA, .TRLBAR, .NOTRLCOM, .USECTRLV, .CMDWIN], cs!"parse_cmd_common"⟩,
  ⟨cs!"nohlsearch", 3, [.TRLBAR, .SBOXOK, .CMDWIN], cs!"parse_cmd_common"⟩,
  ⟨cs!"noreabbrev", 5, [.EXTRA, .TRLBAR, .NOTRLCOM, .USECTRLV, .CMDWIN], cs!"parse_cmd_common"⟩,
  ⟨cs!"noremenu", 6, [.RANGE, .NOTADR, .ZEROR, .BANG, .EXTRA, .TRLBAR, .NOTRLCOM, .USECTRLV, .CMDWIN], cs!"parse_cmd_common"⟩,
  ⟨cs!"normal", 4, [.RANGE, .BANG, .EXTRA, .NEEDARG, .NOTRLCOM, .USECTRLV, .SBOXOK, .CMDWIN], cs!"parse_cmd_common"⟩,
  ⟨cs!"number", 2, [.RANGE, .WHOLEFOLD, .COUNT, .EXFLAGS, .TRLBAR, .CMDWIN], cs!"parse_cmd_common"⟩,
  ⟨cs!"nunmap", 3, [.EXTRA, .TRLBAR, .NOTRLCOM, .USECTRLV, .CMDWIN], cs!"parse_cmd_common"⟩,
  ⟨cs!"nunmenu", 5, [.EXTRA, .TRLBAR, .NOTRLCOM, .USECTRLV, .CMDWIN], cs!"parse_cmd_common"⟩,
  ⟨cs!"oldfiles", 2, [.BANG, .TRLBAR, .SBOXOK, .CMDWIN], cs!"parse_cmd_common"⟩,
  ⟨cs!"open", 1, [.RANGE, .BANG, .EXTRA], cs!"parse_cmd_common"⟩,
  ⟨cs!"omap", 2, [.EXTRA, .TRLBAR, .NOTRLCOM, .USECTRLV, .CMDWIN], cs!"parse_cmd_common"⟩,
  ⟨cs!"omapclear", 5, [.EXTRA, .TRLBAR, .CMDWIN], cs!"parse_cmd_common"⟩,
  ⟨cs!"omenu", 3, [.RANGE, .NOTADR, .ZEROR, .EXTRA, .TRLBAR, .NOTRLCOM, .USECTRLV, .CMDWIN], cs!"parse_cmd_common"⟩,
  ⟨cs!"only", 2, [.BANG, .TRLBAR], cs!"parse_cmd_common"⟩,
  ⟨cs!"onoremap", 3, [.EXTRA, .TRLBAR, .NOTRLCOM, .USECTRLV, .CMDWIN], cs!"parse_cmd_common"⟩,
  ⟨cs!"onoremenu", 7, [.RANGE, .NOTADR, .ZEROR, .EXTRA, .TRLBAR, .NOTRLCOM, .USECTRLV, .CMDWIN], cs!"parse_cmd_common"⟩,
  ⟨cs!"options", 3, [.TRLBAR], cs!"parse_cmd_common"⟩,
  ⟨cs!"ounmap", 2, [.EXTRA, .TRLBAR, .NOTRLCOM, .USECTRLV, .CMDWIN], cs!"parse_cmd_common"⟩,
  ⟨cs!"ounmenu", 5, [.EXTRA, .TRLBAR, .NOTRLCOM, .USECTRLV, .CMDWIN], cs!"parse_cmd_common"⟩,
  ⟨cs!"ownsyntax", 2, [.EXTRA, .NOTRLCOM, .SBOXOK, .CMDWIN], cs!"parse_cmd_common"⟩,
  ⟨cs!"pclose", 2, [.BANG, .TRLBAR], cs!"parse_cmd_common"⟩]

/-- go/builtin_commands.go:321-380 -/
def builtinCommands5 : List Cmd := [
  ⟨cs!"pedit", 3, [.BANG, .FILE1, .EDITCMD, .ARGOPT, .TRLBAR], cs!"parse_cmd_common"⟩,
  ⟨cs!"perl", 2, [.RANGE, .EXTRA, .DFLALL, .NEEDARG, .SBOXOK, .CMDWIN], cs!"parse_cmd_perl"⟩,
  ⟨cs!"print", 1, [.RANGE, .WHOLEFOLD, .COUNT, .EXFLAGS, .TRLBAR, .CMDWIN, .SBOXOK], cs!"parse_cmd_common"⟩,
  ⟨cs!"profdel", 5, [.EXTRA, .TRLBAR, .CMDWIN], cs!"parse_cmd_common"⟩,
  ⟨cs!"profile", 4, [.BANG, .EXTRA, .TRLBAR, .CMDWIN], cs!"parse_cmd_common"⟩,
  ⟨cs!"promptfind", 3, [.EXTRA, .NOTRLCOM, .CMDWIN], cs!"parse_cmd_common"⟩,
  ⟨cs!"promptrepl", 7, [.EXTRA, .NOTRLCOM, .CMDWIN], cs!"parse_cmd_common"⟩,
  ⟨cs!"perldo", 5, [.RANGE, .EXTRA, .DFLALL, .NEEDARG, .CMDWIN], cs!"parse_cmd_common"⟩,
  ⟨cs!"pop", 2, [.RANGE, .NOTADR, .BANG, .COUNT, .TRLBAR, .ZEROR], cs!"parse_cmd_common"⟩,
  ⟨cs!"popup", 4, [.NEEDARG, .EXTRA, .BANG, .TRLBAR, .NOTRLCOM, .CMDWIN], cs!"parse_cmd_common"⟩,
  ⟨cs!"ppop", 2, [.RANGE, .NOTADR, .BANG, .COUNT, .TRLBAR, .ZEROR], cs!"parse_cmd_common"⟩,
  ⟨cs!"preserve", 3, [.TRLBAR], cs!"parse_cmd_common"⟩,
  ⟨cs!"previous", 4, [.EXTRA, .RANGE, .NOTADR, .COUNT, .BANG, .EDITCMD, .ARGOPT, .TRLBAR], cs!"parse_cmd_common"⟩,
  ⟨cs!"psearch", 2, [.BANG, .RANGE, .WHOLEFOLD, .DFLALL, .EXTRA], cs!"parse_cmd_common"⟩,
  ⟨cs!"ptag", 2, [.RANGE, .NOTADR, .BANG, .WORD1, .TRLBAR, .ZEROR], cs!"parse_cmd_common"⟩,
  ⟨cs!"ptNext", 3, [.RANGE, .NOTADR, .BANG, .TRLBAR, .ZEROR], cs!"parse_cmd_common"⟩,
  ⟨cs!"ptfirst", 3, [.RANGE, .NOTADR, .BANG, .TRLBAR, .ZEROR], cs!"parse_cmd_common"⟩,
  ⟨cs!"ptjump", 3, [.BANG, .TRLBAR, .WORD1], cs!"parse_cmd_common"⟩,
  ⟨cs!"ptlast", 3, [.BANG, .TRLBAR], cs!"parse_cmd_common"⟩,
  ⟨cs!"ptnext", 3, [.RANGE, .NOTADR, .BANG, .TRLBAR, .ZEROR], cs!"parse_cmd_common"⟩,
  ⟨cs!"ptprevious", 3, [.RANGE, .NOTADR, .BANG, .TRLBAR, .ZEROR], cs!"parse_cmd_common"⟩,
  ⟨cs!"ptrewind", 3, [.RANGE, .NOTADR, .BANG, .TRLBAR, .ZEROR], cs!"parse_cmd_common"⟩,
  ⟨cs!"ptselect", 3, [.BANG, .TRLBAR, .WORD1], cs!"parse_cmd_common"⟩,
  ⟨cs!"put", 2, [.RANGE, .WHOLEFOLD, .BANG, .REGSTR, .TRLBAR, .ZEROR, .CMDWIN, .MODIFY], cs!"parse_cmd_common"⟩,
  ⟨cs!"pwd", 2, [.TRLBAR, .CMDWIN], cs!"parse_cmd_common"⟩,
  ⟨cs!"py3", 3, [.RANGE, .EXTRA, .NEEDARG, .CMDWIN], cs!"parse_cmd_python3"⟩,
  ⟨cs!"python3", 7, [.RANGE, .EXTRA, .NEEDARG, .CMDWIN], cs!"parse_cmd_python3"⟩,
  ⟨cs!"py3file", 4, [.RANGE, .FILE1, .NEEDARG, .CMDWIN], cs!"parse_cmd_common"⟩,
  ⟨cs!"python", 2, [.RANGE, .EXTRA, .NEEDARG, .CMDWIN], cs!"parse_cmd_python"⟩,
  ⟨cs!"pyfile", 3, [.RANGE, .FILE1, .NEEDARG, .CMDWIN], cs!"parse_cmd_common"⟩,
  ⟨cs!"pydo", 3, [.RANGE, .DFLALL, .EXTRA, .NEEDARG, .CMDWIN], cs!"parse_cmd_common"⟩,
  ⟨cs!"py3do", 4, [.RANGE, .DFLALL, .EXTRA, .NEEDARG, .CMDWIN], cs!"parse_cmd_common"⟩,
  ⟨cs!"quit", 1, [.BANG, .TRLBAR, .CMDWIN], cs!"parse_cmd_common"⟩,
  ⟨cs!"quitall", 5, [.BANG, .TRLBAR], cs!"parse_cmd_common"⟩,
  ⟨cs!"qall", 2, [.BANG, .TRLBAR, .CMDWIN], cs!"parse_cmd_common"⟩,
  ⟨cs!"read", 1, [.BANG, .RANGE, .WHOLEFOLD, .FILE1, .ARGOPT, .TRLBAR, .ZEROR, .CMDWIN, .MODIFY], cs!"parse_cmd_common"⟩,
  ⟨cs!"recover", 3, [.BANG, .FILE1, .TRLBAR], cs!"parse_cmd_common"⟩,
  ⟨cs!"redo", 3, [.TRLBAR, .CMDWIN], cs!"parse_cmd_common"⟩,
  ⟨cs!"redir", 4, [.BANG, .FILES, .TRLBAR, .CMDWIN], cs!"parse_cmd_common"⟩,
  ⟨cs!"redraw", 4, [.BANG, .TRLBAR, .CMDWIN], cs!"parse_cmd_common"⟩,
  ⟨cs!"redrawstatus", 7, [.BANG, .TRLBAR, .CMDWIN], cs!"parse_cmd_common"⟩,
  ⟨cs!"registers", 3, [.EXTRA, .NOTRLCOM, .TRLBAR, .CMDWIN], cs!"parse_cmd_common"⟩,
  ⟨cs!"resize", 3, [.RANGE, .NOTADR, .TRLBAR, .WORD1], cs!"parse_cmd_common"⟩,
  ⟨cs!"retab", 3, [.TRLBAR, .RANGE, .WHOLEFOLD, .DFLALL, .BANG, .WORD1, .CMDWIN, .MODIFY], cs!"parse_cmd_common"⟩,
  ⟨cs!"return", 4, [.EXTRA, .NOTRLCOM, .SBOXOK, .CMDWIN], cs!"parse_cmd_return"⟩,
  ⟨cs!"rewind", 3, [.EXTRA, .BANG, .EDITCMD, .ARGOPT, .TRLBAR], cs!"parse_cmd_common"⟩,
  ⟨cs!"right", 2, [.TRLBAR, .RANGE, .WHOLEFOLD, .EXTRA, .CMDWIN, .MODIFY], cs!"parse_cmd_common"⟩,
  ⟨cs!"rightbelow", 6, [.NEEDARG, .EXTRA, .NOTRLCOM], cs!"parse_cmd_common"⟩,
  ⟨cs!"ruby", 3, [.RANGE, .EXTRA, .NEEDARG, .CMDWIN], cs!"parse_cmd_ruby"⟩,
  ⟨cs!"rubydo", 5, [.RANGE, .DFLALL, .EXTRA, .NEEDARG, .CMDWIN], cs!"parse_cmd_common"⟩,
  ⟨cs!"rubyfile", 5, [.RANGE, .FILE1, .NEEDARG, .CMDWIN], cs!"parse_cmd_common"⟩,
  ⟨cs!"rundo", 4, [.NEEDARG, .FILE1], cs!"parse_cmd_common"⟩,
  ⟨cs!"runtime", 2, [.BANG, .NEEDARG, .FILES, .TRLBAR, .SBOXOK, .CMDWIN], cs!"parse_cmd_common"⟩,
  ⟨cs!"rviminfo", 2, [.BANG, .FILE1, .TRLBAR, .CMDWIN], cs!"parse_cmd_common"⟩,
  ⟨cs!"substitute", 1, [.RANGE, .WHOLEFOLD, .EXTRA, .CMDWIN], cs!"parse_cmd_common"⟩,
  ⟨cs!"sNext", 2, [.EXTRA, .RANGE, .NOTADR, .COUNT, .BANG, .EDITCMD, .ARGOPT, .TRLBAR], cs!"parse_cmd_common"⟩,
  ⟨cs!"sandbox", 3, [.NEEDARG, .EXTRA, .NOTRLCOM], cs!"parse_cmd_common"⟩,
  ⟨cs!"sargument", 2, [.BANG, .RANGE, .NOTADR, .COUNT, .EXTRA, .EDITCMD, .ARGOPT, .TRLBAR], cs!"parse_cmd_common"⟩,
  ⟨cs!"sall", 3, [.BANG, .RANGE, .NOTADR, .COUNT, .TRLBAR], cs!"parse_cmd_common"⟩,
  ⟨cs!"saveas", 3, [.BANG, .DFLALL, .FILE1, .ARGOPT, .CMDWIN, .TRLBAR], cs!"parse_cmd_common"⟩]

/-- go/builtin_commands.go:381-440 -/
def builtinCommands6 : List Cmd := [
  ⟨cs!"sbuffer", 2, [.BANG, .RANGE, .NOTADR, .BUFNAME, .BUFUNL, .COUNT, .EXTRA, .TRLBAR], cs!"parse_cmd_common"⟩,
  ⟨cs!"sbNext", 3, [.RANGE, .NOTADR, .COUNT, .TRLBAR], cs!"parse_cmd_common"⟩,
  ⟨cs!"sball", 3, [.RANGE, .NOTADR, .COUNT, .TRLBAR], cs!"parse_cmd_common"⟩,
  ⟨cs!"sbfirst", 3, [.TRLBAR], cs!"parse_cmd_common"⟩,
  ⟨cs!"sblast", 3, [.TRLBAR], cs!"parse_cmd_common"⟩,
  ⟨cs!"sbmodified", 3, [.RANGE, .NOTADR, .COUNT, .TRLBAR], cs!"parse_cmd_common"⟩,
  ⟨cs!"sbnext", 3, [.RANGE, .NOTADR, .COUNT, .TRLBAR], cs!"parse_cmd_common"⟩,
  ⟨cs!"sbprevious", 3, [.RANGE, .NOTADR, .COUNT, .TRLBAR], cs!"parse_cmd_common"⟩,
  ⟨cs!"sbrewind", 3, [.TRLBAR], cs!"parse_cmd_common"⟩,
  ⟨cs!"scriptnames", 3, [.TRLBAR, .CMDWIN], cs!"parse_cmd_common"⟩,
  ⟨cs!"scriptencoding", 7, [.WORD1, .TRLBAR, .CMDWIN], cs!"parse_cmd_common"⟩,
  ⟨cs!"scscope", 3, [.EXTRA, .NOTRLCOM], cs!"parse_cmd_common"⟩,
  ⟨cs!"set", 2, [.TRLBAR, .EXTRA, .CMDWIN, .SBOXOK], cs!"parse_cmd_common"⟩,
  ⟨cs!"setfiletype", 4, [.TRLBAR, .EXTRA, .NEEDARG, .CMDWIN], cs!"parse_cmd_common"⟩,
  ⟨cs!"setglobal", 4, [.TRLBAR, .EXTRA, .CMDWIN, .SBOXOK], cs!"parse_cmd_common"⟩,
  ⟨cs!"setlocal", 4, [.TRLBAR, .EXTRA, .CMDWIN, .SBOXOK], cs!"parse_cmd_common"⟩,
  ⟨cs!"sfind", 2, [.BANG, .FILE1, .RANGE, .NOTADR, .EDITCMD, .ARGOPT, .TRLBAR], cs!"parse_cmd_common"⟩,
  ⟨cs!"sfirst", 4, [.EXTRA, .BANG, .EDITCMD, .ARGOPT, .TRLBAR], cs!"parse_cmd_common"⟩,
  ⟨cs!"shell", 2, [.TRLBAR, .CMDWIN], cs!"parse_cmd_common"⟩,
  ⟨cs!"simalt", 3, [.NEEDARG, .WORD1, .TRLBAR, .CMDWIN], cs!"parse_cmd_common"⟩,
  ⟨cs!"sign", 3, [.NEEDARG, .RANGE, .NOTADR, .EXTRA, .CMDWIN], cs!"parse_cmd_common"⟩,
  ⟨cs!"silent", 3, [.NEEDARG, .EXTRA, .BANG, .NOTRLCOM, .SBOXOK, .CMDWIN], cs!"parse_cmd_common"⟩,
  ⟨cs!"sleep", 2, [.RANGE, .NOTADR, .COUNT, .EXTRA, .TRLBAR, .CMDWIN], cs!"parse_cmd_common"⟩,
  ⟨cs!"slast", 3, [.EXTRA, .BANG, .EDITCMD, .ARGOPT, .TRLBAR], cs!"parse_cmd_common"⟩,
  ⟨cs!"smagic", 2, [.RANGE, .WHOLEFOLD, .EXTRA, .CMDWIN], cs!"parse_cmd_common"⟩,
  ⟨cs!"smap", 4, [.EXTRA, .TRLBAR, .NOTRLCOM, .USECTRLV, .CMDWIN], cs!"parse_cmd_common"⟩,
  ⟨cs!"smapclear", 5, [.EXTRA, .TRLBAR, .CMDWIN], cs!"parse_cmd_common"⟩,
  ⟨cs!"smenu", 3, [.RANGE, .NOTADR, .ZEROR, .EXTRA, .TRLBAR, .NOTRLCOM, .USECTRLV, .CMDWIN], cs!"parse_cmd_common"⟩,
  ⟨cs!"snext", 2, [.RANGE, .NOTADR, .BANG, .FILES, .EDITCMD, .ARGOPT, .TRLBAR], cs!"parse_cmd_common"⟩,
  ⟨cs!"sniff", 3, [.EXTRA, .TRLBAR], cs!"parse_cmd_common"⟩,
  ⟨cs!"snomagic", 3, [.RANGE, .WHOLEFOLD, .EXTRA, .CMDWIN], cs!"parse_cmd_common"⟩,
  ⟨cs!"snoremap", 4, [.EXTRA, .TRLBAR, .NOTRLCOM, .USECTRLV, .CMDWIN], cs!"parse_cmd_common"⟩,
  ⟨cs!"snoremenu", 7, [.RANGE, .NOTADR, .ZEROR, .EXTRA, .TRLBAR, .NOTRLCOM, .USECTRLV, .CMDWIN], cs!"parse_cmd_common"⟩,
  ⟨cs!"sort", 3, [.RANGE, .DFLALL, .WHOLEFOLD, .BANG, .EXTRA, .NOTRLCOM, .MODIFY], cs!"parse_cmd_common"⟩,
  ⟨cs!"source", 2, [.BANG, .FILE1, .TRLBAR, .SBOXOK, .CMDWIN], cs!"parse_cmd_common"⟩,
  ⟨cs!"spelldump", 6, [.BANG, .TRLBAR], cs!"parse_cmd_common"⟩,
  ⟨cs!"spellgood", 3, [.BANG, .RANGE, .NOTADR, .NEEDARG, .EXTRA, .TRLBAR], cs!"parse_cmd_common"⟩,
  ⟨cs!"spellinfo", 6, [.TRLBAR], cs!"parse_cmd_common"⟩,
  ⟨cs!"spellrepall", 6, [.TRLBAR], cs!"parse_cmd_common"⟩,
  ⟨cs!"spellundo", 6, [.BANG, .RANGE, .NOTADR, .NEEDARG, .EXTRA, .TRLBAR], cs!"parse_cmd_common"⟩,
  ⟨cs!"spellwrong", 6, [.BANG, .RANGE, .NOTADR, .NEEDARG, .EXTRA, .TRLBAR], cs!"parse_cmd_common"⟩,
  ⟨cs!"split", 2, [.BANG, .FILE1, .RANGE, .NOTADR, .EDITCMD, .ARGOPT, .TRLBAR], cs!"parse_cmd_common"⟩,
  ⟨cs!"sprevious", 3, [.EXTRA, .RANGE, .NOTADR, .COUNT, .BANG, .EDITCMD, .ARGOPT, .TRLBAR], cs!"parse_cmd_common"⟩,
  ⟨cs!"srewind", 3, [.EXTRA, .BANG, .EDITCMD, .ARGOPT, .TRLBAR], cs!"parse_cmd_common"⟩,
  ⟨cs!"stop", 2, [.TRLBAR, .BANG, .CMDWIN], cs!"parse_cmd_common"⟩,
  ⟨cs!"stag", 3, [.RANGE, .NOTADR, .BANG, .WORD1, .TRLBAR, .ZEROR], cs!"parse_cmd_common"⟩,
  ⟨cs!"startinsert", 4, [.BANG, .TRLBAR, .CMDWIN], cs!"parse_cmd_common"⟩,
  ⟨cs!"startgreplace", 6, [.BANG, .TRLBAR, .CMDWIN], cs!"parse_cmd_common"⟩,
  ⟨cs!"startreplace", 6, [.BANG, .TRLBAR, .CMDWIN], cs!"parse_cmd_common"⟩,
  ⟨cs!"stopinsert", 5, [.BANG, .TRLBAR, .CMDWIN], cs!"parse_cmd_common"⟩,
  ⟨cs!"stjump", 3, [.BANG, .TRLBAR, .WORD1], cs!"parse_cmd_common"⟩,
  ⟨cs!"stselect", 3, [.BANG, .TRLBAR, .WORD1], cs!"parse_cmd_common"⟩,
  ⟨cs!"sunhide", 3, [.RANGE, .NOTADR, .COUNT, .TRLBAR], cs!"parse_cmd_common"⟩,
  ⟨cs!"sunmap", 4, [.EXTRA, .TRLBAR, .NOTRLCOM, .USECTRLV, .CMDWIN], cs!"parse_cmd_common"⟩,
  ⟨cs!"sunmenu", 5, [.EXTRA, .TRLBAR, .NOTRLCOM, .USECTRLV, .CMDWIN], cs!"parse_cmd_common"⟩,
  ⟨cs!"suspend", 3, [.TRLBAR, .BANG, .CMDWIN], cs!"parse_cmd_common"⟩,
  ⟨cs!"sview", 2, [.BANG, .FILE1, .RANGE, .NOTADR, .EDITCMD, .ARGOPT, .TRLBAR], cs!"parse_cmd_common"⟩,
  ⟨cs!"swapname", 2, [.TRLBAR, .CMDWIN], cs!"parse_cmd_common"⟩,
  ⟨cs!"syntax", 2, [.EXTRA, .NOTRLCOM, .CMDWIN], cs!"parse_cmd_syntax"⟩,
  ⟨cs!"syntime", 5, [.NEEDARG, .WORD1, .TRLBAR, .CMDWIN], cs!"parse_cmd_common"⟩]

/-- go/builtin_commands.go:441-500 -/
def builtinCommands7 : List Cmd := [
  ⟨cs!"syncbind", 4, [.TRLBAR], cs!"parse_cmd_common"⟩,
  ⟨cs!"t", 1, [.RANGE, .WHOLEFOLD, .EXTRA, .TRLBAR, .CMDWIN, .MODIFY], cs!"parse_cmd_common"⟩,
  ⟨cs!"tNext", 2, [.RANGE, .NOTADR, .BANG, .TRLBAR, .ZEROR], cs!"parse_cmd_common"⟩,
  ⟨cs!"tabNext", 4, [.RANGE, .NOTADR, .COUNT, .TRLBAR], cs!"parse_cmd_common"⟩,
  ⟨cs!"tabclose", 4, [.RANGE, .NOTADR, .COUNT, .BANG, .TRLBAR, .CMDWIN], cs!"parse_cmd_common"⟩,
  ⟨cs!"tabdo", 4, [.NEEDARG, .EXTRA, .NOTRLCOM], cs!"parse_cmd_common"⟩,
  ⟨cs!"tabedit", 4, [.BANG, .FILE1, .RANGE, .NOTADR, .ZEROR, .EDITCMD, .ARGOPT, .TRLBAR], cs!"parse_cmd_common"⟩,
  ⟨cs!"tabfind", 4, [.BANG, .FILE1, .RANGE, .NOTADR, .ZEROR, .EDITCMD, .ARGOPT, .NEEDARG, .TRLBAR], cs!"parse_cmd_common"⟩,
  ⟨cs!"tabfirst", 6, [.TRLBAR], cs!"parse_cmd_common"⟩,
  ⟨cs!"tablast", 4, [.TRLBAR], cs!"parse_cmd_common"⟩,
  ⟨cs!"tabmove", 4, [.RANGE, .NOTADR, .ZEROR, .EXTRA, .NOSPC, .TRLBAR], cs!"parse_cmd_common"⟩,
  ⟨cs!"tabnew", 6, [.BANG, .FILE1, .RANGE, .NOTADR, .ZEROR, .EDITCMD, .ARGOPT, .TRLBAR], cs!"parse_cmd_common"⟩,
  ⟨cs!"tabnext", 4, [.RANGE, .NOTADR, .COUNT, .TRLBAR], cs!"parse_cmd_common"⟩,
  ⟨cs!"tabonly", 4, [.BANG, .TRLBAR, .CMDWIN], cs!"parse_cmd_common"⟩,
  ⟨cs!"tabprevious", 4, [.RANGE, .NOTADR, .COUNT, .TRLBAR], cs!"parse_cmd_common"⟩,
  ⟨cs!"tabrewind", 4, [.TRLBAR], cs!"parse_cmd_common"⟩,
  ⟨cs!"tabs", 4, [.TRLBAR, .CMDWIN], cs!"parse_cmd_common"⟩,
  ⟨cs!"tab", 3, [.NEEDARG, .EXTRA, .NOTRLCOM], cs!"parse_cmd_common"⟩,
  ⟨cs!"tag", 2, [.RANGE, .NOTADR, .BANG, .WORD1, .TRLBAR, .ZEROR], cs!"parse_cmd_common"⟩,
  ⟨cs!"tags", 4, [.TRLBAR, .CMDWIN], cs!"parse_cmd_common"⟩,
  ⟨cs!"tcl", 2, [.RANGE, .EXTRA, .NEEDARG, .CMDWIN], cs!"parse_cmd_tcl"⟩,
  ⟨cs!"tcldo", 4, [.RANGE, .DFLALL, .EXTRA, .NEEDARG, .CMDWIN], cs!"parse_cmd_common"⟩,
  ⟨cs!"tclfile", 4, [.RANGE, .FILE1, .NEEDARG, .CMDWIN], cs!"parse_cmd_common"⟩,
  ⟨cs!"tearoff", 2, [.NEEDARG, .EXTRA, .TRLBAR, .NOTRLCOM, .CMDWIN], cs!"parse_cmd_common"⟩,
  ⟨cs!"tfirst", 2, [.RANGE, .NOTADR, .BANG, .TRLBAR, .ZEROR], cs!"parse_cmd_common"⟩,
  ⟨cs!"throw", 2, [.EXTRA, .NEEDARG, .SBOXOK, .CMDWIN], cs!"parse_cmd_throw"⟩,
  ⟨cs!"tjump", 2, [.BANG, .TRLBAR, .WORD1], cs!"parse_cmd_common"⟩,
  ⟨cs!"tlast", 2, [.BANG, .TRLBAR], cs!"parse_cmd_common"⟩,
  ⟨cs!"tmenu", 2, [.RANGE, .NOTADR, .ZEROR, .EXTRA, .TRLBAR, .NOTRLCOM, .USECTRLV, .CMDWIN], cs!"parse_cmd_common"⟩,
  ⟨cs!"tnext", 2, [.RANGE, .NOTADR, .BANG, .TRLBAR, .ZEROR], cs!"parse_cmd_common"⟩,
  ⟨cs!"topleft", 2, [.NEEDARG, .EXTRA, .NOTRLCOM], cs!"parse_cmd_common"⟩,
  ⟨cs!"tprevious", 2, [.RANGE, .NOTADR, .BANG, .TRLBAR, .ZEROR], cs!"parse_cmd_common"⟩,
  ⟨cs!"trewind", 2, [.RANGE, .NOTADR, .BANG, .TRLBAR, .ZEROR], cs!"parse_cmd_common"⟩,
  ⟨cs!"try", 3, [.TRLBAR, .SBOXOK, .CMDWIN], cs!"parse_cmd_try"⟩,
  ⟨cs!"tselect", 2, [.BANG, .TRLBAR, .WORD1], cs!"parse_cmd_common"⟩,
  ⟨cs!"tunmenu", 2, [.EXTRA, .TRLBAR, .NOTRLCOM, .USECTRLV, .CMDWIN], cs!"parse_cmd_common"⟩,
  ⟨cs!"undo", 1, [.RANGE, .NOTADR, .COUNT, .ZEROR, .TRLBAR, .CMDWIN], cs!"parse_cmd_common"⟩,
  ⟨cs!"undojoin", 5, [.TRLBAR, .CMDWIN], cs!"parse_cmd_common"⟩,
  ⟨cs!"undolist", 5, [.TRLBAR, .CMDWIN], cs!"parse_cmd_common"⟩,
  ⟨cs!"unabbreviate", 3, [.EXTRA, .TRLBAR, .NOTRLCOM, .USECTRLV, .CMDWIN], cs!"parse_cmd_common"⟩,
  ⟨cs!"unhide", 3, [.RANGE, .NOTADR, .COUNT, .TRLBAR], cs!"parse_cmd_common"⟩,
  ⟨cs!"unlet", 3, [.BANG, .EXTRA, .NEEDARG, .SBOXOK, .CMDWIN], cs!"parse_cmd_unlet"⟩,
  ⟨cs!"unlockvar", 4, [.BANG, .EXTRA, .NEEDARG, .SBOXOK, .CMDWIN], cs!"parse_cmd_unlockvar"⟩,
  ⟨cs!"unmap", 3, [.BANG, .EXTRA, .TRLBAR, .NOTRLCOM, .USECTRLV, .CMDWIN], cs!"parse_cmd_common"⟩,
  ⟨cs!"unmenu", 4, [.BANG, .EXTRA, .TRLBAR, .NOTRLCOM, .USECTRLV, .CMDWIN], cs!"parse_cmd_common"⟩,
  ⟨cs!"unsilent", 3, [.NEEDARG, .EXTRA, .NOTRLCOM, .SBOXOK, .CMDWIN], cs!"parse_cmd_common"⟩,
  ⟨cs!"update", 2, [.RANGE, .WHOLEFOLD, .BANG, .FILE1, .ARGOPT, .DFLALL, .TRLBAR], cs!"parse_cmd_common"⟩,
  ⟨cs!"vglobal", 1, [.RANGE, .WHOLEFOLD, .EXTRA, .DFLALL, .CMDWIN], cs!"parse_cmd_common"⟩,
  ⟨cs!"version", 2, [.EXTRA, .TRLBAR, .CMDWIN], cs!"parse_cmd_common"⟩,
  ⟨cs!"verbose", 4, [.NEEDARG, .RANGE, .NOTADR, .EXTRA, .NOTRLCOM, .SBOXOK, .CMDWIN], cs!"parse_cmd_common"⟩,
  ⟨cs!"vertical", 4, [.NEEDARG, .EXTRA, .NOTRLCOM], cs!"parse_cmd_common"⟩,
  ⟨cs!"vimgrep", 3, [.RANGE, .NOTADR, .BANG, .NEEDARG, .EXTRA, .NOTRLCOM, .TRLBAR, .XFILE], cs!"parse_cmd_common"⟩,
  ⟨cs!"vimgrepadd", 8, [.RANGE, .NOTADR, .BANG, .NEEDARG, .EXTRA, .NOTRLCOM, .TRLBAR, .XFILE], cs!"parse_cmd_common"⟩,
  ⟨cs!"visual", 2, [.BANG, .FILE1, .EDITCMD, .ARGOPT, .TRLBAR], cs!"parse_cmd_common"⟩,
  ⟨cs!"viusage", 3, [.TRLBAR], cs!"parse_cmd_common"⟩,
  ⟨cs!"view", 3, [.BANG, .FILE1, .EDITCMD, .ARGOPT, .TRLBAR], cs!"parse_cmd_common"⟩,
  ⟨cs!"vmap", 2, [.EXTRA, .TRLBAR, .NOTRLCOM, .USECTRLV, .CMDWIN], cs!"parse_cmd_common"⟩,
  ⟨cs!"vmapclear", 5, [.EXTRA, .TRLBAR, .CMDWIN], cs!"parse_cmd_common"⟩,
  ⟨cs!"vmenu", 3, [.RANGE, .NOTADR, .ZEROR, .EXTRA, .TRLBAR, .NOTRLCOM, .USECTRLV, .CMDWIN], cs!"parse_cmd_common"⟩,
  ⟨cs!"vnew", 3, [.BANG, .FILE1, .RANGE, .NOTADR, .EDITCMD, .ARGOPT, .TRLBAR], cs!"parse_cmd_common"⟩]

/-- go/builtin_commands.go:501-560 -/
def builtinCommands8 : List Cmd := [
  ⟨cs!"vnoremap", 2, [.EXTRA, .TRLBAR, .NOTRLCOM, .USECTRLV, .CMDWIN], cs!"parse_cmd_common"⟩,
  ⟨cs!"vnoremenu", 7, [.RANGE, .NOTADR, .ZEROR, .EXTRA, .TRLBAR, .NOTRLCOM, .USECTRLV, .CMDWIN], cs!"parse_cmd_common"⟩,
  ⟨cs!"vsplit", 2, [.BANG, .FILE1, .RANGE, .NOTADR, .EDITCMD, .ARGOPT, .TRLBAR], cs!"parse_cmd_common"⟩,
  ⟨cs!"vunmap", 2, [.EXTRA, .TRLBAR, .NOTRLCOM, .USECTRLV, .CMDWIN], cs!"parse_cmd_common"⟩,
  ⟨cs!"vunmenu", 5, [.EXTRA, .TRLBAR, .NOTRLCOM, .USECTRLV, .CMDWIN], cs!"parse_cmd_common"⟩,
  ⟨cs!"windo", 5, [.BANG, .NEEDARG, .EXTRA, .NOTRLCOM], cs!"parse_cmd_common"⟩,
  ⟨cs!"write", 1, [.RANGE, .WHOLEFOLD, .BANG, .FILE1, .ARGOPT, .DFLALL, .TRLBAR, .CMDWIN], cs!"parse_cmd_common"⟩,
  ⟨cs!"wNext", 2, [.RANGE, .WHOLEFOLD, .NOTADR, .BANG, .FILE1, .ARGOPT, .TRLBAR], cs!"parse_cmd_common"⟩,
  ⟨cs!"wall", 2, [.BANG, .TRLBAR, .CMDWIN], cs!"parse_cmd_common"⟩,
  ⟨cs!"while", 2, [.EXTRA, .NOTRLCOM, .SBOXOK, .CMDWIN], cs!"parse_cmd_while"⟩,
  ⟨cs!"winsize", 2, [.EXTRA, .NEEDARG, .TRLBAR], cs!"parse_cmd_common"⟩,
  ⟨cs!"wincmd", 4, [.NEEDARG, .WORD1, .RANGE, .NOTADR], cs!"parse_wincmd"⟩,
  ⟨cs!"winpos", 4, [.EXTRA, .TRLBAR, .CMDWIN], cs!"parse_cmd_common"⟩,
  ⟨cs!"wnext", 2, [.RANGE, .NOTADR, .BANG, .FILE1, .ARGOPT, .TRLBAR], cs!"parse_cmd_common"⟩,
  ⟨cs!"wprevious", 2, [.RANGE, .NOTADR, .BANG, .FILE1, .ARGOPT, .TRLBAR], cs!"parse_cmd_common"⟩,
  ⟨cs!"wq", 2, [.RANGE, .WHOLEFOLD, .BANG, .FILE1, .ARGOPT, .DFLALL, .TRLBAR], cs!"parse_cmd_common"⟩,
  ⟨cs!"wqall", 3, [.BANG, .FILE1, .ARGOPT, .DFLALL, .TRLBAR], cs!"parse_cmd_common"⟩,
  ⟨cs!"wsverb", 2, [.EXTRA, .NOTADR, .NEEDARG], cs!"parse_cmd_common"⟩,
  ⟨cs!"wundo", 2, [.BANG, .NEEDARG, .FILE1], cs!"parse_cmd_common"⟩,
  ⟨cs!"wviminfo", 2, [.BANG, .FILE1, .TRLBAR, .CMDWIN], cs!"parse_cmd_common"⟩,
  ⟨cs!"xit", 1, [.RANGE, .WHOLEFOLD, .BANG, .FILE1, .ARGOPT, .DFLALL, .TRLBAR, .CMDWIN], cs!"parse_cmd_common"⟩,
  ⟨cs!"xall", 2, [.BANG, .TRLBAR], cs!"parse_cmd_common"⟩,
  ⟨cs!"xmapclear", 5, [.EXTRA, .TRLBAR, .CMDWIN], cs!"parse_cmd_common"⟩,
  ⟨cs!"xmap", 2, [.EXTRA, .TRLBAR, .NOTRLCOM, .USECTRLV, .CMDWIN], cs!"parse_cmd_common"⟩,
  ⟨cs!"xmenu", 3, [.RANGE, .NOTADR, .ZEROR, .EXTRA, .TRLBAR, .NOTRLCOM, .USECTRLV, .CMDWIN], cs!"parse_cmd_common"⟩,
  ⟨cs!"xnoremap", 2, [.EXTRA, .TRLBAR, .NOTRLCOM, .USECTRLV, .CMDWIN], cs!"parse_cmd_common"⟩,
  ⟨cs!"xnoremenu", 7, [.RANGE, .NOTADR, .ZEROR, .EXTRA, .TRLBAR, .NOTRLCOM, .USECTRLV, .CMDWIN], cs!"parse_cmd_common"⟩,
  ⟨cs!"xunmap", 2, [.EXTRA, .TRLBAR, .NOTRLCOM, .USECTRLV, .CMDWIN], cs!"parse_cmd_common"⟩,
  ⟨cs!"xunmenu", 5, [.EXTRA, .TRLBAR, .NOTRLCOM, .USECTRLV, .CMDWIN], cs!"parse_cmd_common"⟩,
  ⟨cs!"yank", 1, [.RANGE, .WHOLEFOLD, .REGSTR, .COUNT, .TRLBAR, .CMDWIN], cs!"parse_cmd_common"⟩,
  ⟨cs!"z", 1, [.RANGE, .WHOLEFOLD, .EXTRA, .EXFLAGS, .TRLBAR, .CMDWIN], cs!"parse_cmd_common"⟩,
  ⟨cs!"!", 1, [.RANGE, .WHOLEFOLD, .BANG, .FILES, .CMDWIN], cs!"parse_cmd_common"⟩,
  ⟨cs!"#", 1, [.RANGE, .WHOLEFOLD, .COUNT, .EXFLAGS, .TRLBAR, .CMDWIN], cs!"parse_cmd_common"⟩,
  ⟨cs!"&", 1, [.RANGE, .WHOLEFOLD, .EXTRA, .CMDWIN, .MODIFY], cs!"parse_cmd_common"⟩,
  ⟨cs!"*", 1, [.RANGE, .WHOLEFOLD, .EXTRA, .TRLBAR, .CMDWIN], cs!"parse_cmd_common"⟩,
  ⟨cs!"<", 1, [.RANGE, .WHOLEFOLD, .COUNT, .EXFLAGS, .TRLBAR, .CMDWIN, .MODIFY], cs!"parse_cmd_common"⟩,
  ⟨cs!"=", 1, [.RANGE, .TRLBAR, .DFLALL, .EXFLAGS, .CMDWIN], cs!"parse_cmd_common"⟩,
  ⟨cs!">", 1, [.RANGE, .WHOLEFOLD, .COUNT, .EXFLAGS, .TRLBAR, .CMDWIN, .MODIFY], cs!"parse_cmd_common"⟩,
  ⟨cs!"@", 1, [.RANGE, .WHOLEFOLD, .EXTRA, .TRLBAR, .CMDWIN], cs!"parse_cmd_common"⟩,
  ⟨cs!"Next", 1, [.EXTRA, .RANGE, .NOTADR, .COUNT, .BANG, .EDITCMD, .ARGOPT, .TRLBAR], cs!"parse_cmd_common"⟩,
  ⟨cs!"Print", 1, [.RANGE, .WHOLEFOLD, .COUNT, .EXFLAGS, .TRLBAR, .CMDWIN], cs!"parse_cmd_common"⟩,
  ⟨cs!"X", 1, [.TRLBAR], cs!"parse_cmd_common"⟩,
  ⟨cs!"~", 1, [.RANGE, .WHOLEFOLD, .EXTRA, .CMDWIN, .MODIFY], cs!"parse_cmd_common"⟩,
  ⟨cs!"cbottom", 3, [.TRLBAR], cs!"parse_cmd_common"⟩,
  ⟨cs!"cdo", 3, [.BANG, .NEEDARG, .EXTRA, .NOTRLCOM, .RANGE, .NOTADR, .DFLALL], cs!"parse_cmd_common"⟩,
  ⟨cs!"cfdo", 3, [.BANG, .NEEDARG, .EXTRA, .NOTRLCOM, .RANGE, .NOTADR, .DFLALL], cs!"parse_cmd_common"⟩,
  ⟨cs!"chistory", 3, [.TRLBAR], cs!"parse_cmd_common"⟩,
  ⟨cs!"clearjumps", 3, [.TRLBAR, .CMDWIN], cs!"parse_cmd_common"⟩,
  ⟨cs!"filter", 4, [.BANG, .NEEDARG, .EXTRA, .NOTRLCOM], cs!"parse_cmd_common"⟩,
  ⟨cs!"helpclose", 5, [.RANGE, .NOTADR, .COUNT, .TRLBAR], cs!"parse_cmd_common"⟩,
  ⟨cs!"lbottom", 3, [.TRLBAR], cs!"parse_cmd_common"⟩,
  ⟨cs!"ldo", 2, [.BANG, .NEEDARG, .EXTRA, .NOTRLCOM, .RANGE, .NOTADR, .DFLALL], cs!"parse_cmd_common"⟩,
  ⟨cs!"lfdo", 3, [.BANG, .NEEDARG, .EXTRA, .NOTRLCOM, .RANGE, .NOTADR, .DFLALL], cs!"parse_cmd_common"⟩,
  ⟨cs!"lhistory", 3, [.TRLBAR], cs!"parse_cmd_common"⟩,
  ⟨cs!"llist", 3, [.BANG, .EXTRA, .TRLBAR, .CMDWIN], cs!"parse_cmd_common"⟩,
  ⟨cs!"noswapfile", 3, [.NEEDARG, .EXTRA, .NOTRLCOM], cs!"parse_cmd_common"⟩,
  ⟨cs!"packadd", 2, [.BANG, .FILE1, .NEEDARG, .TRLBAR, .SBOXOK, .CMDWIN], cs!"parse_cmd_common"⟩,
  ⟨cs!"packloadall", 5, [.BANG, .TRLBAR, .SBOXOK, .CMDWIN], cs!"parse_cmd_common"⟩,
  ⟨cs!"smile", 3, [.TRLBAR, .CMDWIN, .SBOXOK], cs!"parse_cmd_common"⟩,
  ⟨cs!"pyx", 3, [.RANGE, .EXTRA, .NEEDARG, .CMDWIN], cs!"parse_cmd_common"⟩]

/-- go/builtin_commands.go:561-592 -/
def builtinCommands9 : List Cmd := [
  ⟨cs!"pyxdo", 4, [.RANGE, .DFLALL, .EXTRA, .NEEDARG, .CMDWIN], cs!"parse_cmd_common"⟩,
  ⟨cs!"pythonx", 7, [.RANGE, .EXTRA, .NEEDARG, .CMDWIN], cs!"parse_cmd_common"⟩,
  ⟨cs!"pyxfile", 4, [.RANGE, .FILE1, .NEEDARG, .CMDWIN], cs!"parse_cmd_common"⟩,
  ⟨cs!"terminal", 3, [.RANGE, .BANG, .FILES, .CMDWIN], cs!"parse_cmd_common"⟩,
  ⟨cs!"tmap", 3, [.EXTRA, .TRLBAR, .NOTRLCOM, .USECTRLV, .CMDWIN], cs!"parse_cmd_common"⟩,
  ⟨cs!"tmapclear", 5, [.EXTRA, .TRLBAR, .CMDWIN], cs!"parse_cmd_common"⟩,
  ⟨cs!"tnoremap", 3, [.EXTRA, .TRLBAR, .NOTRLCOM, .USECTRLV, .CMDWIN], cs!"parse_cmd_common"⟩,
  ⟨cs!"tunmap", 5, [.EXTRA, .TRLBAR, .NOTRLCOM, .USECTRLV, .CMDWIN], cs!"parse_cmd_common"⟩,
  ⟨cs!"cabove", 4, [.RANGE, .COUNT, .TRLBAR], cs!"parse_cmd_common"⟩,
  ⟨cs!"cafter", 3, [.RANGE, .COUNT, .TRLBAR], cs!"parse_cmd_common"⟩,
  ⟨cs!"cbefore", 3, [.RANGE, .COUNT, .TRLBAR], cs!"parse_cmd_common"⟩,
  ⟨cs!"cbelow", 4, [.RANGE, .COUNT, .TRLBAR], cs!"parse_cmd_common"⟩,
  ⟨cs!"const", 4, [.EXTRA, .NOTRLCOM, .SBOXOK, .CMDWIN], cs!"parse_cmd_common"⟩,
  ⟨cs!"labove", 3, [.RANGE, .COUNT, .TRLBAR], cs!"parse_cmd_common"⟩,
  ⟨cs!"lafter", 3, [.RANGE, .COUNT, .TRLBAR], cs!"parse_cmd_common"⟩,
  ⟨cs!"lbefore", 3, [.RANGE, .COUNT, .TRLBAR], cs!"parse_cmd_common"⟩,
  ⟨cs!"lbelow", 4, [.RANGE, .COUNT, .TRLBAR], cs!"parse_cmd_common"⟩,
  ⟨cs!"redrawtabline", 7, [.TRLBAR, .CMDWIN], cs!"parse_cmd_common"⟩,
  ⟨cs!"scriptversion", 7, [.WORD1, .TRLBAR, .CMDWIN], cs!"parse_cmd_common"⟩,
  ⟨cs!"tcd", 2, [.BANG, .FILE1, .TRLBAR, .CMDWIN], cs!"parse_cmd_common"⟩,
  ⟨cs!"tchdir", 3, [.BANG, .FILE1, .TRLBAR, .CMDWIN], cs!"parse_cmd_common"⟩,
  ⟨cs!"tlmenu", 3, [.RANGE, .ZEROR, .EXTRA, .TRLBAR, .NOTRLCOM, .CTRLV, .CMDWIN], cs!"parse_cmd_common"⟩,
  ⟨cs!"tlnoremenu", 3, [.RANGE, .ZEROR, .EXTRA, .TRLBAR, .NOTRLCOM, .CTRLV, .CMDWIN], cs!"parse_cmd_common"⟩,
  ⟨cs!"tlunmenu", 3, [.RANGE, .ZEROR, .EXTRA, .TRLBAR, .NOTRLCOM, .CTRLV, .CMDWIN], cs!"parse_cmd_common"⟩,
  ⟨cs!"xrestore", 2, [.EXTRA, .TRLBAR, .CMDWIN], cs!"parse_cmd_common"⟩,
  ⟨cs!"def", 3, [.EXTRA, .BANG, .SBOXOK, .CMDWIN], cs!"parse_cmd_common"⟩,
  ⟨cs!"disassemble", 4, [.EXTRA, .NEEDARG, .TRLBAR, .CMDWIN], cs!"parse_cmd_common"⟩,
  ⟨cs!"enddef", 4, [.TRLBAR, .CMDWIN], cs!"parse_cmd_common"⟩,
  ⟨cs!"export", 3, [.EXTRA, .NOTRLCOM], cs!"parse_cmd_common"⟩,
  ⟨cs!"import", 3, [.EXTRA, .NOTRLCOM], cs!"parse_cmd_common"⟩,
  ⟨cs!"spellrare", 7, [.BANG, .RANGE, .NEEDARG, .EXTRA, .TRLBAR], cs!"parse_cmd_common"⟩,
  ⟨cs!"vim9script", 4, [], cs!"parse_cmd_common"⟩]

/-- go/builtin_commands.go:20-593 `builtin_commands` -/
def builtinCommands : List Cmd :=
  builtinCommands0 ++
  builtinCommands1 ++
  builtinCommands2 ++
  builtinCommands3 ++
  builtinCommands4 ++
  builtinCommands5 ++
  builtinCommands6 ++
  builtinCommands7 ++
  builtinCommands8 ++
  builtinCommands9

end Viml
