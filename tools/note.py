#!/usr/bin/env python3
"""Add or replace notes: note.py C24 "text" [status]"""
import json, sys
p = '/verif/tools/notes.json'
d = json.load(open(p))
e = {"note": sys.argv[2]}
if len(sys.argv) > 3:
    e["status"] = sys.argv[3]
d[sys.argv[1]] = e
json.dump(d, open(p, 'w'), indent=1)
