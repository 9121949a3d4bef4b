#!/usr/bin/env python3
# generates /verif/MANIFEST.json from the table below
import json,os
C=[]
def c(prop,status,theorems,note):
    C.append(dict(property=prop,status=status,theorems=["Verif."+t for t in theorems.split()],note=note))
exec(open(os.path.join(os.path.dirname(__file__),"manifest_table.py")).read())
json.dump({"claims":C},open("/verif/MANIFEST.json","w"),indent=1)
