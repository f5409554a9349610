#!/usr/bin/env python3
"""set_claim.py ID STATUS NOTE THEOREM... : updates claims.json and MANIFEST.json"""
import json, pathlib, subprocess, sys
f = pathlib.Path(__file__).resolve().parent / "claims.json"
c = json.load(open(f))
i, st, note, *th = sys.argv[1:]
c[i] = {"status": st, "theorems": ["SC." + t for t in th], "note": note}
json.dump(dict(sorted(c.items())), open(f, "w"), indent=1)
subprocess.check_call([sys.executable, str(f.parent / "gen_manifest.py")])
