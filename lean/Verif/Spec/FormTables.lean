import Verif.Spec.Forms

/-! # The ways to write sources and a few more (written by tools/mkways.py) -/

namespace Guessit.Spec

/-- Sources: for each declaration and each of its expressions, the ways to write it. -/
def sourceWays : List (List (List Way)) := [
  [[⟨c!"vhs rip", [⟨c!"source", c!"VHS", 0, 3⟩, ⟨c!"other", c!"Rip", 4, 7⟩], .anything⟩,
    ⟨c!"vhsrip", [⟨c!"source", c!"VHS", 0, 3⟩, ⟨c!"other", c!"Rip", 3, 6⟩], .anything⟩,
    ⟨c!"vhs", [⟨c!"source", c!"VHS", 0, 3⟩], .anything⟩]],
  [[⟨c!"cam rip", [⟨c!"source", c!"Camera", 0, 3⟩, ⟨c!"other", c!"Rip", 4, 7⟩], .anything⟩,
    ⟨c!"camrip", [⟨c!"source", c!"Camera", 0, 3⟩, ⟨c!"other", c!"Rip", 3, 6⟩], .anything⟩,
    ⟨c!"cam", [⟨c!"source", c!"Camera", 0, 3⟩], .anything⟩]],
  [[⟨c!"hd cam rip", [⟨c!"source", c!"HD Camera", 0, 6⟩, ⟨c!"other", c!"Rip", 7, 10⟩], .anything⟩,
    ⟨c!"hd camrip", [⟨c!"source", c!"HD Camera", 0, 6⟩, ⟨c!"other", c!"Rip", 6, 9⟩], .anything⟩,
    ⟨c!"hd cam", [⟨c!"source", c!"HD Camera", 0, 6⟩], .anything⟩,
    ⟨c!"hdcam rip", [⟨c!"source", c!"HD Camera", 0, 5⟩, ⟨c!"other", c!"Rip", 6, 9⟩], .anything⟩,
    ⟨c!"hdcamrip", [⟨c!"source", c!"HD Camera", 0, 5⟩, ⟨c!"other", c!"Rip", 5, 8⟩], .anything⟩,
    ⟨c!"hdcam", [⟨c!"source", c!"HD Camera", 0, 5⟩], .anything⟩]],
  [[⟨c!"telesync rip", [⟨c!"source", c!"Telesync", 0, 8⟩, ⟨c!"other", c!"Rip", 9, 12⟩], .anything⟩,
    ⟨c!"telesyncrip", [⟨c!"source", c!"Telesync", 0, 8⟩, ⟨c!"other", c!"Rip", 8, 11⟩], .anything⟩,
    ⟨c!"telesync", [⟨c!"source", c!"Telesync", 0, 8⟩], .anything⟩],
   [⟨c!"ts rip", [⟨c!"source", c!"Telesync", 0, 2⟩, ⟨c!"other", c!"Rip", 3, 6⟩], .anything⟩,
    ⟨c!"tsrip", [⟨c!"source", c!"Telesync", 0, 2⟩, ⟨c!"other", c!"Rip", 2, 5⟩], .anything⟩,
    ⟨c!"ts", [⟨c!"source", c!"Telesync", 0, 2⟩], .anything⟩]],
  [[⟨c!"hd telesync rip", [⟨c!"source", c!"HD Telesync", 0, 11⟩, ⟨c!"other", c!"Rip", 12, 15⟩], .anything⟩,
    ⟨c!"hd telesyncrip", [⟨c!"source", c!"HD Telesync", 0, 11⟩, ⟨c!"other", c!"Rip", 11, 14⟩], .anything⟩,
    ⟨c!"hd telesync", [⟨c!"source", c!"HD Telesync", 0, 11⟩], .anything⟩,
    ⟨c!"hdtelesync rip", [⟨c!"source", c!"HD Telesync", 0, 10⟩, ⟨c!"other", c!"Rip", 11, 14⟩], .anything⟩,
    ⟨c!"hdtelesyncrip", [⟨c!"source", c!"HD Telesync", 0, 10⟩, ⟨c!"other", c!"Rip", 10, 13⟩], .anything⟩,
    ⟨c!"hdtelesync", [⟨c!"source", c!"HD Telesync", 0, 10⟩], .anything⟩],
   [⟨c!"hd ts rip", [⟨c!"source", c!"HD Telesync", 0, 5⟩, ⟨c!"other", c!"Rip", 6, 9⟩], .anything⟩,
    ⟨c!"hd tsrip", [⟨c!"source", c!"HD Telesync", 0, 5⟩, ⟨c!"other", c!"Rip", 5, 8⟩], .anything⟩,
    ⟨c!"hd ts", [⟨c!"source", c!"HD Telesync", 0, 5⟩], .anything⟩,
    ⟨c!"hdts rip", [⟨c!"source", c!"HD Telesync", 0, 4⟩, ⟨c!"other", c!"Rip", 5, 8⟩], .anything⟩,
    ⟨c!"hdtsrip", [⟨c!"source", c!"HD Telesync", 0, 4⟩, ⟨c!"other", c!"Rip", 4, 7⟩], .anything⟩,
    ⟨c!"hdts", [⟨c!"source", c!"HD Telesync", 0, 4⟩], .anything⟩]],
  [[⟨c!"workprint", [⟨c!"source", c!"Workprint", 0, 9⟩], .anything⟩],
   [⟨c!"wp", [⟨c!"source", c!"Workprint", 0, 2⟩], .anything⟩]],
  [[⟨c!"telecine rip", [⟨c!"source", c!"Telecine", 0, 8⟩, ⟨c!"other", c!"Rip", 9, 12⟩], .anything⟩,
    ⟨c!"telecinerip", [⟨c!"source", c!"Telecine", 0, 8⟩, ⟨c!"other", c!"Rip", 8, 11⟩], .anything⟩,
    ⟨c!"telecine", [⟨c!"source", c!"Telecine", 0, 8⟩], .anything⟩],
   [⟨c!"tc rip", [⟨c!"source", c!"Telecine", 0, 2⟩, ⟨c!"other", c!"Rip", 3, 6⟩], .anything⟩,
    ⟨c!"tcrip", [⟨c!"source", c!"Telecine", 0, 2⟩, ⟨c!"other", c!"Rip", 2, 5⟩], .anything⟩,
    ⟨c!"tc", [⟨c!"source", c!"Telecine", 0, 2⟩], .anything⟩]],
  [[⟨c!"hd telecine rip", [⟨c!"source", c!"HD Telecine", 0, 11⟩, ⟨c!"other", c!"Rip", 12, 15⟩], .anything⟩,
    ⟨c!"hd telecinerip", [⟨c!"source", c!"HD Telecine", 0, 11⟩, ⟨c!"other", c!"Rip", 11, 14⟩], .anything⟩,
    ⟨c!"hd telecine", [⟨c!"source", c!"HD Telecine", 0, 11⟩], .anything⟩,
    ⟨c!"hdtelecine rip", [⟨c!"source", c!"HD Telecine", 0, 10⟩, ⟨c!"other", c!"Rip", 11, 14⟩], .anything⟩,
    ⟨c!"hdtelecinerip", [⟨c!"source", c!"HD Telecine", 0, 10⟩, ⟨c!"other", c!"Rip", 10, 13⟩], .anything⟩,
    ⟨c!"hdtelecine", [⟨c!"source", c!"HD Telecine", 0, 10⟩], .anything⟩],
   [⟨c!"hd tc rip", [⟨c!"source", c!"HD Telecine", 0, 5⟩, ⟨c!"other", c!"Rip", 6, 9⟩], .anything⟩,
    ⟨c!"hd tcrip", [⟨c!"source", c!"HD Telecine", 0, 5⟩, ⟨c!"other", c!"Rip", 5, 8⟩], .anything⟩,
    ⟨c!"hd tc", [⟨c!"source", c!"HD Telecine", 0, 5⟩], .anything⟩,
    ⟨c!"hdtc rip", [⟨c!"source", c!"HD Telecine", 0, 4⟩, ⟨c!"other", c!"Rip", 5, 8⟩], .anything⟩,
    ⟨c!"hdtcrip", [⟨c!"source", c!"HD Telecine", 0, 4⟩, ⟨c!"other", c!"Rip", 4, 7⟩], .anything⟩,
    ⟨c!"hdtc", [⟨c!"source", c!"HD Telecine", 0, 4⟩], .anything⟩]],
  [[⟨c!"ppv rip", [⟨c!"source", c!"Pay-per-view", 0, 3⟩, ⟨c!"other", c!"Rip", 4, 7⟩], .anything⟩,
    ⟨c!"ppvrip", [⟨c!"source", c!"Pay-per-view", 0, 3⟩, ⟨c!"other", c!"Rip", 3, 6⟩], .anything⟩,
    ⟨c!"ppv", [⟨c!"source", c!"Pay-per-view", 0, 3⟩], .anything⟩]],
  [[⟨c!"sd tv rip", [⟨c!"source", c!"TV", 0, 5⟩, ⟨c!"other", c!"Rip", 6, 9⟩], .anything⟩,
    ⟨c!"sd tvrip", [⟨c!"source", c!"TV", 0, 5⟩, ⟨c!"other", c!"Rip", 5, 8⟩], .anything⟩,
    ⟨c!"sd tv", [⟨c!"source", c!"TV", 0, 5⟩], .anything⟩,
    ⟨c!"sdtv rip", [⟨c!"source", c!"TV", 0, 4⟩, ⟨c!"other", c!"Rip", 5, 8⟩], .anything⟩,
    ⟨c!"sdtvrip", [⟨c!"source", c!"TV", 0, 4⟩, ⟨c!"other", c!"Rip", 4, 7⟩], .anything⟩,
    ⟨c!"sdtv", [⟨c!"source", c!"TV", 0, 4⟩], .anything⟩]],
  [[⟨c!"tv rip", [⟨c!"source", c!"TV", 0, 2⟩, ⟨c!"other", c!"Rip", 3, 6⟩], .anything⟩,
    ⟨c!"tvrip", [⟨c!"source", c!"TV", 0, 2⟩, ⟨c!"other", c!"Rip", 2, 5⟩], .anything⟩]],
  [[⟨c!"rip tv", [⟨c!"source", c!"TV", 4, 6⟩, ⟨c!"other", c!"Rip", 0, 3⟩], .anything⟩,
    ⟨c!"riptv", [⟨c!"source", c!"TV", 3, 5⟩, ⟨c!"other", c!"Rip", 0, 3⟩], .anything⟩],
   [⟨c!"rip sd tv", [⟨c!"source", c!"TV", 4, 9⟩, ⟨c!"other", c!"Rip", 0, 3⟩], .anything⟩,
    ⟨c!"rip sdtv", [⟨c!"source", c!"TV", 4, 8⟩, ⟨c!"other", c!"Rip", 0, 3⟩], .anything⟩,
    ⟨c!"ripsd tv", [⟨c!"source", c!"TV", 3, 8⟩, ⟨c!"other", c!"Rip", 0, 3⟩], .anything⟩,
    ⟨c!"ripsdtv", [⟨c!"source", c!"TV", 3, 7⟩, ⟨c!"other", c!"Rip", 0, 3⟩], .anything⟩]],
  [[⟨c!"tv ", [⟨c!"source", c!"TV", 0, 3⟩], .oneOf [c!"dub"]⟩,
    ⟨c!"tv", [⟨c!"source", c!"TV", 0, 2⟩], .oneOf [c!"dub"]⟩]],
  [[⟨c!"dvb rip", [⟨c!"source", c!"Digital TV", 0, 3⟩, ⟨c!"other", c!"Rip", 4, 7⟩], .anything⟩,
    ⟨c!"dvbrip", [⟨c!"source", c!"Digital TV", 0, 3⟩, ⟨c!"other", c!"Rip", 3, 6⟩], .anything⟩,
    ⟨c!"dvb", [⟨c!"source", c!"Digital TV", 0, 3⟩], .anything⟩],
   [⟨c!"pd tv rip", [⟨c!"source", c!"Digital TV", 0, 5⟩, ⟨c!"other", c!"Rip", 6, 9⟩], .anything⟩,
    ⟨c!"pd tvrip", [⟨c!"source", c!"Digital TV", 0, 5⟩, ⟨c!"other", c!"Rip", 5, 8⟩], .anything⟩,
    ⟨c!"pd tv", [⟨c!"source", c!"Digital TV", 0, 5⟩], .anything⟩,
    ⟨c!"pdtv rip", [⟨c!"source", c!"Digital TV", 0, 4⟩, ⟨c!"other", c!"Rip", 5, 8⟩], .anything⟩,
    ⟨c!"pdtvrip", [⟨c!"source", c!"Digital TV", 0, 4⟩, ⟨c!"other", c!"Rip", 4, 7⟩], .anything⟩,
    ⟨c!"pdtv", [⟨c!"source", c!"Digital TV", 0, 4⟩], .anything⟩]],
  [[⟨c!"dvd rip", [⟨c!"source", c!"DVD", 0, 3⟩, ⟨c!"other", c!"Rip", 4, 7⟩], .anything⟩,
    ⟨c!"dvdrip", [⟨c!"source", c!"DVD", 0, 3⟩, ⟨c!"other", c!"Rip", 3, 6⟩], .anything⟩,
    ⟨c!"dvd", [⟨c!"source", c!"DVD", 0, 3⟩], .anything⟩]],
  [[⟨c!"dm rip", [⟨c!"source", c!"Digital Master", 0, 2⟩, ⟨c!"other", c!"Rip", 3, 6⟩], .anything⟩,
    ⟨c!"dmrip", [⟨c!"source", c!"Digital Master", 0, 2⟩, ⟨c!"other", c!"Rip", 2, 5⟩], .anything⟩,
    ⟨c!"dm", [⟨c!"source", c!"Digital Master", 0, 2⟩], .anything⟩]],
  [[⟨c!"video ts", [⟨c!"source", c!"DVD", 0, 8⟩], .anything⟩,
    ⟨c!"videots", [⟨c!"source", c!"DVD", 0, 7⟩], .anything⟩],
   [⟨c!"dvd r", [⟨c!"source", c!"DVD", 0, 5⟩], .not 'e'⟩,
    ⟨c!"dvdr", [⟨c!"source", c!"DVD", 0, 4⟩], .not 'e'⟩],
   [⟨c!"dvd 9", [⟨c!"source", c!"DVD", 0, 5⟩], .anything⟩,
    ⟨c!"dvd9", [⟨c!"source", c!"DVD", 0, 4⟩], .anything⟩],
   [⟨c!"dvd 5", [⟨c!"source", c!"DVD", 0, 5⟩], .anything⟩,
    ⟨c!"dvd5", [⟨c!"source", c!"DVD", 0, 4⟩], .anything⟩]],
  [[⟨c!"hd tv rip", [⟨c!"source", c!"HDTV", 0, 5⟩, ⟨c!"other", c!"Rip", 6, 9⟩], .anything⟩,
    ⟨c!"hd tvrip", [⟨c!"source", c!"HDTV", 0, 5⟩, ⟨c!"other", c!"Rip", 5, 8⟩], .anything⟩,
    ⟨c!"hd tv", [⟨c!"source", c!"HDTV", 0, 5⟩], .anything⟩,
    ⟨c!"hdtv rip", [⟨c!"source", c!"HDTV", 0, 4⟩, ⟨c!"other", c!"Rip", 5, 8⟩], .anything⟩,
    ⟨c!"hdtvrip", [⟨c!"source", c!"HDTV", 0, 4⟩, ⟨c!"other", c!"Rip", 4, 7⟩], .anything⟩,
    ⟨c!"hdtv", [⟨c!"source", c!"HDTV", 0, 4⟩], .anything⟩]],
  [[⟨c!"tv hd rip", [⟨c!"source", c!"HDTV", 0, 5⟩, ⟨c!"other", c!"Rip", 6, 9⟩], .anything⟩,
    ⟨c!"tv hdrip", [⟨c!"source", c!"HDTV", 0, 5⟩, ⟨c!"other", c!"Rip", 5, 8⟩], .anything⟩,
    ⟨c!"tvhd rip", [⟨c!"source", c!"HDTV", 0, 4⟩, ⟨c!"other", c!"Rip", 5, 8⟩], .anything⟩,
    ⟨c!"tvhdrip", [⟨c!"source", c!"HDTV", 0, 4⟩, ⟨c!"other", c!"Rip", 4, 7⟩], .anything⟩]],
  [[⟨c!"tv rip hd", [⟨c!"source", c!"HDTV", 0, 2⟩, ⟨c!"other", c!"Rip", 3, 9⟩], .anything⟩,
    ⟨c!"tv riphd", [⟨c!"source", c!"HDTV", 0, 2⟩, ⟨c!"other", c!"Rip", 3, 8⟩], .anything⟩,
    ⟨c!"tvrip hd", [⟨c!"source", c!"HDTV", 0, 2⟩, ⟨c!"other", c!"Rip", 2, 8⟩], .anything⟩,
    ⟨c!"tvriphd", [⟨c!"source", c!"HDTV", 0, 2⟩, ⟨c!"other", c!"Rip", 2, 7⟩], .anything⟩]],
  [[⟨c!"vod rip", [⟨c!"source", c!"Video on Demand", 0, 3⟩, ⟨c!"other", c!"Rip", 4, 7⟩], .anything⟩,
    ⟨c!"vodrip", [⟨c!"source", c!"Video on Demand", 0, 3⟩, ⟨c!"other", c!"Rip", 3, 6⟩], .anything⟩,
    ⟨c!"vod", [⟨c!"source", c!"Video on Demand", 0, 3⟩], .anything⟩]],
  [[⟨c!"web rip", [⟨c!"source", c!"Web", 0, 3⟩, ⟨c!"other", c!"Rip", 4, 7⟩], .anything⟩,
    ⟨c!"webrip", [⟨c!"source", c!"Web", 0, 3⟩, ⟨c!"other", c!"Rip", 3, 6⟩], .anything⟩],
   [⟨c!"web dl rip", [⟨c!"source", c!"Web", 0, 6⟩, ⟨c!"other", c!"Rip", 7, 10⟩], .anything⟩,
    ⟨c!"web dlrip", [⟨c!"source", c!"Web", 0, 6⟩, ⟨c!"other", c!"Rip", 6, 9⟩], .anything⟩,
    ⟨c!"webdl rip", [⟨c!"source", c!"Web", 0, 5⟩, ⟨c!"other", c!"Rip", 6, 9⟩], .anything⟩,
    ⟨c!"webdlrip", [⟨c!"source", c!"Web", 0, 5⟩, ⟨c!"other", c!"Rip", 5, 8⟩], .anything⟩]],
  [[⟨c!"web cap rip", [⟨c!"source", c!"Web", 0, 7⟩, ⟨c!"other", c!"Rip", 8, 11⟩, ⟨c!"another", c!"Rip", 4, 7⟩], .anything⟩,
    ⟨c!"web caprip", [⟨c!"source", c!"Web", 0, 7⟩, ⟨c!"other", c!"Rip", 7, 10⟩, ⟨c!"another", c!"Rip", 4, 7⟩], .anything⟩,
    ⟨c!"web cap", [⟨c!"source", c!"Web", 0, 7⟩, ⟨c!"another", c!"Rip", 4, 7⟩], .anything⟩,
    ⟨c!"webcap rip", [⟨c!"source", c!"Web", 0, 6⟩, ⟨c!"other", c!"Rip", 7, 10⟩, ⟨c!"another", c!"Rip", 3, 6⟩], .anything⟩,
    ⟨c!"webcaprip", [⟨c!"source", c!"Web", 0, 6⟩, ⟨c!"other", c!"Rip", 6, 9⟩, ⟨c!"another", c!"Rip", 3, 6⟩], .anything⟩,
    ⟨c!"webcap", [⟨c!"source", c!"Web", 0, 6⟩, ⟨c!"another", c!"Rip", 3, 6⟩], .anything⟩]],
  [[⟨c!"web dl", [⟨c!"source", c!"Web", 0, 6⟩], .anything⟩,
    ⟨c!"webdl", [⟨c!"source", c!"Web", 0, 5⟩], .anything⟩],
   [⟨c!"web uhd", [⟨c!"source", c!"Web", 0, 7⟩], .anything⟩,
    ⟨c!"web hd", [⟨c!"source", c!"Web", 0, 6⟩], .anything⟩,
    ⟨c!"webuhd", [⟨c!"source", c!"Web", 0, 6⟩], .anything⟩,
    ⟨c!"webhd", [⟨c!"source", c!"Web", 0, 5⟩], .anything⟩],
   [⟨c!"dl web", [⟨c!"source", c!"Web", 0, 6⟩], .anything⟩,
    ⟨c!"dlweb", [⟨c!"source", c!"Web", 0, 5⟩], .anything⟩],
   [⟨c!"dl", [⟨c!"source", c!"Web", 0, 2⟩], .oneOf [c!" mux", c!"mux"]⟩]],
  [[⟨c!"web", [⟨c!"source", c!"Web", 0, 3⟩], .anything⟩]],
  [[⟨c!"hd dvd rip", [⟨c!"source", c!"HD-DVD", 0, 6⟩, ⟨c!"other", c!"Rip", 7, 10⟩], .anything⟩,
    ⟨c!"hd dvdrip", [⟨c!"source", c!"HD-DVD", 0, 6⟩, ⟨c!"other", c!"Rip", 6, 9⟩], .anything⟩,
    ⟨c!"hd dvd", [⟨c!"source", c!"HD-DVD", 0, 6⟩], .anything⟩,
    ⟨c!"hddvd rip", [⟨c!"source", c!"HD-DVD", 0, 5⟩, ⟨c!"other", c!"Rip", 6, 9⟩], .anything⟩,
    ⟨c!"hddvdrip", [⟨c!"source", c!"HD-DVD", 0, 5⟩, ⟨c!"other", c!"Rip", 5, 8⟩], .anything⟩,
    ⟨c!"hddvd", [⟨c!"source", c!"HD-DVD", 0, 5⟩], .anything⟩]],
  [[⟨c!"blu ray rip", [⟨c!"source", c!"Blu-ray", 0, 7⟩, ⟨c!"other", c!"Rip", 8, 11⟩], .anything⟩,
    ⟨c!"blu rayrip", [⟨c!"source", c!"Blu-ray", 0, 7⟩, ⟨c!"other", c!"Rip", 7, 10⟩], .anything⟩,
    ⟨c!"blu ray", [⟨c!"source", c!"Blu-ray", 0, 7⟩], .anything⟩,
    ⟨c!"bluray rip", [⟨c!"source", c!"Blu-ray", 0, 6⟩, ⟨c!"other", c!"Rip", 7, 10⟩], .anything⟩,
    ⟨c!"blurayrip", [⟨c!"source", c!"Blu-ray", 0, 6⟩, ⟨c!"other", c!"Rip", 6, 9⟩], .anything⟩,
    ⟨c!"bluray", [⟨c!"source", c!"Blu-ray", 0, 6⟩], .anything⟩],
   [⟨c!"bd rip", [⟨c!"source", c!"Blu-ray", 0, 2⟩, ⟨c!"other", c!"Rip", 3, 6⟩], .anything⟩,
    ⟨c!"bdrip", [⟨c!"source", c!"Blu-ray", 0, 2⟩, ⟨c!"other", c!"Rip", 2, 5⟩], .anything⟩,
    ⟨c!"bd", [⟨c!"source", c!"Blu-ray", 0, 2⟩], .anything⟩],
   [⟨c!"bd5 rip", [⟨c!"source", c!"Blu-ray", 0, 3⟩, ⟨c!"other", c!"Rip", 4, 7⟩], .anything⟩,
    ⟨c!"bd5rip", [⟨c!"source", c!"Blu-ray", 0, 3⟩, ⟨c!"other", c!"Rip", 3, 6⟩], .anything⟩,
    ⟨c!"bd5", [⟨c!"source", c!"Blu-ray", 0, 3⟩], .anything⟩,
    ⟨c!"bd9 rip", [⟨c!"source", c!"Blu-ray", 0, 3⟩, ⟨c!"other", c!"Rip", 4, 7⟩], .anything⟩,
    ⟨c!"bd9rip", [⟨c!"source", c!"Blu-ray", 0, 3⟩, ⟨c!"other", c!"Rip", 3, 6⟩], .anything⟩,
    ⟨c!"bd9", [⟨c!"source", c!"Blu-ray", 0, 3⟩], .anything⟩],
   [⟨c!"bd25 rip", [⟨c!"source", c!"Blu-ray", 0, 4⟩, ⟨c!"other", c!"Rip", 5, 8⟩], .anything⟩,
    ⟨c!"bd25rip", [⟨c!"source", c!"Blu-ray", 0, 4⟩, ⟨c!"other", c!"Rip", 4, 7⟩], .anything⟩,
    ⟨c!"bd25", [⟨c!"source", c!"Blu-ray", 0, 4⟩], .anything⟩],
   [⟨c!"bd50 rip", [⟨c!"source", c!"Blu-ray", 0, 4⟩, ⟨c!"other", c!"Rip", 5, 8⟩], .anything⟩,
    ⟨c!"bd50rip", [⟨c!"source", c!"Blu-ray", 0, 4⟩, ⟨c!"other", c!"Rip", 4, 7⟩], .anything⟩,
    ⟨c!"bd50", [⟨c!"source", c!"Blu-ray", 0, 4⟩], .anything⟩]],
  [[⟨c!"br ", [⟨c!"source", c!"Blu-ray", 0, 3⟩, ⟨c!"another", c!"Reencoded", 0, 2⟩], .oneOf [c!"screener", c!"scr"]⟩,
    ⟨c!"br", [⟨c!"source", c!"Blu-ray", 0, 2⟩, ⟨c!"another", c!"Reencoded", 0, 2⟩], .oneOf [c!"screener", c!"scr"]⟩],
   [⟨c!"br ", [⟨c!"source", c!"Blu-ray", 0, 3⟩, ⟨c!"another", c!"Reencoded", 0, 2⟩], .oneOf [c!"mux"]⟩,
    ⟨c!"br", [⟨c!"source", c!"Blu-ray", 0, 2⟩, ⟨c!"another", c!"Reencoded", 0, 2⟩], .oneOf [c!"mux"]⟩]],
  [[⟨c!"br rip", [⟨c!"source", c!"Blu-ray", 0, 2⟩, ⟨c!"other", c!"Rip", 3, 6⟩, ⟨c!"another", c!"Reencoded", 0, 2⟩], .anything⟩,
    ⟨c!"brrip", [⟨c!"source", c!"Blu-ray", 0, 2⟩, ⟨c!"other", c!"Rip", 2, 5⟩, ⟨c!"another", c!"Reencoded", 0, 2⟩], .anything⟩]],
  [[⟨c!"ultra blu ray", [⟨c!"source", c!"Ultra HD Blu-ray", 0, 13⟩], .anything⟩,
    ⟨c!"ultra bluray", [⟨c!"source", c!"Ultra HD Blu-ray", 0, 12⟩], .anything⟩,
    ⟨c!"ultrablu ray", [⟨c!"source", c!"Ultra HD Blu-ray", 0, 12⟩], .anything⟩,
    ⟨c!"ultrabluray", [⟨c!"source", c!"Ultra HD Blu-ray", 0, 11⟩], .anything⟩],
   [⟨c!"blu ray ultra", [⟨c!"source", c!"Ultra HD Blu-ray", 0, 13⟩], .anything⟩,
    ⟨c!"blu rayultra", [⟨c!"source", c!"Ultra HD Blu-ray", 0, 12⟩], .anything⟩,
    ⟨c!"bluray ultra", [⟨c!"source", c!"Ultra HD Blu-ray", 0, 12⟩], .anything⟩,
    ⟨c!"blurayultra", [⟨c!"source", c!"Ultra HD Blu-ray", 0, 11⟩], .anything⟩]],
  [[⟨c!"ahdtv", [⟨c!"source", c!"Analog HDTV", 0, 5⟩], .anything⟩]],
  [[⟨c!"uhd tv rip", [⟨c!"source", c!"Ultra HDTV", 0, 6⟩, ⟨c!"other", c!"Rip", 7, 10⟩], .anything⟩,
    ⟨c!"uhd tvrip", [⟨c!"source", c!"Ultra HDTV", 0, 6⟩, ⟨c!"other", c!"Rip", 6, 9⟩], .anything⟩,
    ⟨c!"uhd tv", [⟨c!"source", c!"Ultra HDTV", 0, 6⟩], .anything⟩,
    ⟨c!"uhdtv rip", [⟨c!"source", c!"Ultra HDTV", 0, 5⟩, ⟨c!"other", c!"Rip", 6, 9⟩], .anything⟩,
    ⟨c!"uhdtvrip", [⟨c!"source", c!"Ultra HDTV", 0, 5⟩, ⟨c!"other", c!"Rip", 5, 8⟩], .anything⟩,
    ⟨c!"uhdtv", [⟨c!"source", c!"Ultra HDTV", 0, 5⟩], .anything⟩]],
  [[⟨c!"uhd rip", [⟨c!"source", c!"Ultra HDTV", 0, 3⟩, ⟨c!"other", c!"Rip", 4, 7⟩], .anything⟩,
    ⟨c!"uhdrip", [⟨c!"source", c!"Ultra HDTV", 0, 3⟩, ⟨c!"other", c!"Rip", 3, 6⟩], .anything⟩]],
  [[⟨c!"dsr rip", [⟨c!"source", c!"Satellite", 0, 3⟩, ⟨c!"other", c!"Rip", 4, 7⟩], .anything⟩,
    ⟨c!"dsrrip", [⟨c!"source", c!"Satellite", 0, 3⟩, ⟨c!"other", c!"Rip", 3, 6⟩], .anything⟩,
    ⟨c!"dsr", [⟨c!"source", c!"Satellite", 0, 3⟩], .anything⟩],
   [⟨c!"dth rip", [⟨c!"source", c!"Satellite", 0, 3⟩, ⟨c!"other", c!"Rip", 4, 7⟩], .anything⟩,
    ⟨c!"dthrip", [⟨c!"source", c!"Satellite", 0, 3⟩, ⟨c!"other", c!"Rip", 3, 6⟩], .anything⟩,
    ⟨c!"dth", [⟨c!"source", c!"Satellite", 0, 3⟩], .anything⟩]],
  [[⟨c!"dsr rip", [⟨c!"source", c!"Satellite", 0, 3⟩, ⟨c!"other", c!"Rip", 4, 7⟩], .anything⟩,
    ⟨c!"dsrrip", [⟨c!"source", c!"Satellite", 0, 3⟩, ⟨c!"other", c!"Rip", 3, 6⟩], .anything⟩,
    ⟨c!"ds rip", [⟨c!"source", c!"Satellite", 0, 2⟩, ⟨c!"other", c!"Rip", 3, 6⟩], .anything⟩,
    ⟨c!"dsrip", [⟨c!"source", c!"Satellite", 0, 2⟩, ⟨c!"other", c!"Rip", 2, 5⟩], .anything⟩],
   [⟨c!"sat rip", [⟨c!"source", c!"Satellite", 0, 3⟩, ⟨c!"other", c!"Rip", 4, 7⟩], .anything⟩,
    ⟨c!"satrip", [⟨c!"source", c!"Satellite", 0, 3⟩, ⟨c!"other", c!"Rip", 3, 6⟩], .anything⟩]]]

/-- `HDRip`. -/
def hdRipWays : List (List (List Way)) := [
  [[⟨c!"hdrip", [⟨c!"other", c!"HD", 0, 2⟩, ⟨c!"another", c!"Rip", 2, 5⟩], .anything⟩]]]

/-- `hevc10`. -/
def hevcWays : List (List (List Way)) := [
  [[⟨c!"hevc10", [⟨c!"video_codec", c!"H.265", 0, 4⟩, ⟨c!"color_depth", c!"10-bit", 4, 6⟩], .anything⟩]]]

end Guessit.Spec
