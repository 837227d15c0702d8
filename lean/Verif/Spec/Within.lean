/-
Messages about blocks.
-/
import Verif.Spec.FileError

namespace Viml.Spec

/-- The messages that say that a command is not in the right block, or that a block has no end. -/
def blockMsgs : List Str := [
  cs!"E582: :elseif without :if", cs!"E581: :else without :if", cs!"E580: :endif without :if",
  cs!"E588: :endwhile without :while", cs!"E588: :endfor without :for",
  cs!"E586: :continue without :while or :for", cs!"E587: :break without :while or :for",
  cs!"E604: :catch after :finally", cs!"E603: :catch without :try", cs!"E606: :finally without :try", cs!"E602: :endtry without :try",
  cs!"E133: :return not inside a function", cs!"E193: :endfunction not inside a function",
  cs!"E171: Missing :endif:    ENDFUNCTION", cs!"E600: Missing :endtry:    ENDFUNCTION",
  cs!"E170: Missing :endwhile:    ENDFUNCTION", cs!"E170: Missing :endfor:    ENDFUNCTION",
  cs!"E126: Missing :endfunction:    TOPLEVEL", cs!"E171: Missing :endif:    TOPLEVEL", cs!"E600: Missing :endtry:    TOPLEVEL",
  cs!"E170: Missing :endwhile:    TOPLEVEL", cs!"E170: Missing :endfor:    TOPLEVEL"]

end Viml.Spec
